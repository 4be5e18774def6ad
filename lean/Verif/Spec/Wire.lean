import Verif.Model.Basic

/-!
# Specification: wire formats of Salt Channel v2 packets

Independent of the model: each format is written down as a literal concatenation.
-/

namespace Salt.Spec

/-- 16-bit little-endian. -/
def le16 (n : Nat) : Bytes := [UInt8.ofNat n, UInt8.ofNat (n / 256)]
/-- 32-bit little-endian. -/
def le32 (n : Nat) : Bytes :=
  [UInt8.ofNat n, UInt8.ofNat (n / 256), UInt8.ofNat (n / 65536), UInt8.ofNat (n / 16777216)]

/-- M1: `"SCv2"`, type 1, flags (bit 0: server key present), time, client key, optional server key. -/
def m1 (time : Nat) (clientKey : Bytes) : Option Bytes → Bytes
  | none => [0x53, 0x43, 0x76, 0x32, 1, 0] ++ le32 time ++ clientKey
  | some serverKey => [0x53, 0x43, 0x76, 0x32, 1, 1] ++ le32 time ++ clientKey ++ serverKey

/-- M2: type 2, flags (bit 0 no such server, bit 7 last), time, server key. -/
def m2 (noSuchServer last : Bool) (time : Nat) (serverKey : Bytes) : Bytes :=
  [2, (if noSuchServer then 1 else 0) + (if last then 128 else 0)] ++ le32 time ++ serverKey

/-- M3: type 3, 0, time, server signing key, signature 1. -/
def m3 (time : Nat) (serverSigKey signature : Bytes) : Bytes :=
  [3, 0] ++ le32 time ++ serverSigKey ++ signature

/-- M4: type 4, 0, time, client signing key, signature 2. -/
def m4 (time : Nat) (clientSigKey signature : Bytes) : Bytes :=
  [4, 0] ++ le32 time ++ clientSigKey ++ signature

/-- Encrypted packet: type 6, flags (bit 7 last), body. -/
def encrypted (last : Bool) (body : Bytes) : Bytes := [6, if last then 128 else 0] ++ body

/-- App packet: type 5, 0, time, payload. -/
def app (time : Nat) (payload : Bytes) : Bytes := [5, 0] ++ le32 time ++ payload

/-- Multi app packet: type 11, 0, time, count, then (length, bytes) per message. -/
def multiApp (time : Nat) (msgs : List Bytes) : Bytes :=
  [11, 0] ++ le32 time ++ le16 msgs.length ++ (msgs.map fun m => le16 m.length ++ m).flatten

/-- A1: type 8, 0, address type, address size, address. -/
def a1 (addressType : UInt8) (address : Bytes) : Bytes :=
  [8, 0, addressType] ++ le16 address.length ++ address

/-- A2: type 9, flags (bit 0 no such server, bit 7 last), count, (P1, P2) pairs. -/
def a2 (noSuchServer last : Bool) (prots : List (Bytes × Bytes)) : Bytes :=
  [9, (if noSuchServer then 1 else 0) + (if last then 128 else 0), UInt8.ofNat prots.length]
    ++ (prots.map fun p => p.1 ++ p.2).flatten

end Salt.Spec
