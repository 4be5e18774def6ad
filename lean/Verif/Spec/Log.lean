import Verif.Spec.Net
import Verif.Spec.App
import Verif.Model.Dev
import Verif.Model.Examples

/-!
# What is written during a session
-/

namespace Salt.Spec

open Salt

namespace Net

variable {α β : Type}

/-- A run together with the write calls that the two sides make in it: whether `is_last` is set, and the messages. -/
inductive Logged : Net α β → List (Bool × List Bytes) → List (Bool × List Bytes) → Net α β → Prop
  | refl (x) : Logged x [] [] x
  | aWrite {b ab ba z la lb} (ms : List Bytes) (l : Bool) (k : Except Err Unit → IT appSig α) :
      Logged ⟨k (.ok ()), b, ab ++ ms, ba⟩ la lb z →
      Logged ⟨.op (S := appSig) (.write ms l) k, b, ab, ba⟩ ((l, ms) :: la) lb z
  | aRead {b ab ba z la lb} (m : Bytes) (k : Except Err Bytes → IT appSig α) :
      Logged ⟨k (.ok m), b, ab, ba⟩ la lb z → Logged ⟨.op (S := appSig) .read k, b, ab, m :: ba⟩ la lb z
  | bWrite {a ab ba z la lb} (ms : List Bytes) (l : Bool) (k : Except Err Unit → IT appSig β) :
      Logged ⟨a, k (.ok ()), ab, ba ++ ms⟩ la lb z →
      Logged ⟨a, .op (S := appSig) (.write ms l) k, ab, ba⟩ la ((l, ms) :: lb) z
  | bRead {a ab ba z la lb} (m : Bytes) (k : Except Err Bytes → IT appSig β) :
      Logged ⟨a, k (.ok m), ab, ba⟩ la lb z → Logged ⟨a, .op (S := appSig) .read k, m :: ab, ba⟩ la lb z

end Net

/-- The messages of some write calls. -/
def messages (calls : List (Bool × List Bytes)) : List Bytes := (calls.map Prod.snd).flatten

/-- The total length of some messages. -/
def size (msgs : List Bytes) : Nat := (msgs.map List.length).sum

/-- A write call of an application program: which call of the time objects of its side comes with it, whether `is_last` is
set, and the messages. -/
structure AppCall where
  tick : Nat
  last : Bool
  msgs : List Bytes

/-- How the messages of one write call are distributed over packets. -/
def groups (ms : List Bytes) : List (List Bytes) :=
  if 2 ≤ ms.length ∧ ∀ m ∈ ms, m.length ≤ 65535 then [ms] else ms.map fun m => [m]

/-- Two application programs, the messages that have arrived but have not been read, the packets in flight, and the numbers
of the next calls of the time objects: one call of `get_time` per write call, and one call of `check_time` per packet
received. -/
structure AppNet (α β : Type) where
  a : IT appSig α
  b : IT appSig β
  qa : List Bytes
  qb : List Bytes
  /-- from `a` to `b` -/
  ab : List (List Bytes)
  /-- from `b` to `a` -/
  ba : List (List Bytes)
  ia : Nat
  ib : Nat

namespace AppNet

variable {α β : Type}

/-- A run, with the write calls in it. -/
inductive Logged : AppNet α β → List AppCall → List AppCall → AppNet α β → Prop
  | refl (x) : Logged x [] [] x
  | aWrite {b qa qb ab ba ia ib z la lb} (ms : List Bytes) (l : Bool) (k : Except Err Unit → IT appSig α) :
      Logged ⟨k (.ok ()), b, qa, qb, ab ++ groups ms, ba, ia + 1, ib⟩ la lb z →
      Logged ⟨.op (S := appSig) (.write ms l) k, b, qa, qb, ab, ba, ia, ib⟩ (⟨ia, l, ms⟩ :: la) lb z
  | aRead {b qa qb ab ba ia ib z la lb} (m : Bytes) (k : Except Err Bytes → IT appSig α) :
      Logged ⟨k (.ok m), b, qa, qb, ab, ba, ia, ib⟩ la lb z →
      Logged ⟨.op (S := appSig) .read k, b, m :: qa, qb, ab, ba, ia, ib⟩ la lb z
  | aPacket {b qa qb ab ba ia ib z la lb} (m : Bytes) (k : Except Err Bytes → IT appSig α) :
      Logged ⟨k (.ok m), b, qa, qb, ab, ba, ia + 1, ib⟩ la lb z →
      Logged ⟨.op (S := appSig) .read k, b, [], qb, ab, (m :: qa) :: ba, ia, ib⟩ la lb z
  | bWrite {a qa qb ab ba ia ib z la lb} (ms : List Bytes) (l : Bool) (k : Except Err Unit → IT appSig β) :
      Logged ⟨a, k (.ok ()), qa, qb, ab, ba ++ groups ms, ia, ib + 1⟩ la lb z →
      Logged ⟨a, .op (S := appSig) (.write ms l) k, qa, qb, ab, ba, ia, ib⟩ la (⟨ib, l, ms⟩ :: lb) z
  | bRead {a qa qb ab ba ia ib z la lb} (m : Bytes) (k : Except Err Bytes → IT appSig β) :
      Logged ⟨a, k (.ok m), qa, qb, ab, ba, ia, ib⟩ la lb z →
      Logged ⟨a, .op (S := appSig) .read k, qa, m :: qb, ab, ba, ia, ib⟩ la lb z
  | bPacket {a qa qb ab ba ia ib z la lb} (m : Bytes) (k : Except Err Bytes → IT appSig β) :
      Logged ⟨a, k (.ok m), qa, qb, ab, ba, ia, ib + 1⟩ la lb z →
      Logged ⟨a, .op (S := appSig) .read k, qa, [], (m :: qb) :: ab, ba, ia, ib⟩ la lb z

/-- The network in which it does not matter how messages are distributed over packets. -/
def net (x : AppNet α β) : Net α β := ⟨x.a, x.b, x.qb ++ x.ab.flatten, x.qa ++ x.ba.flatten⟩

/-- The programs after the handshake, in which both sides call their time objects four times. -/
def start (a : IT appSig α) (b : IT appSig β) : AppNet α β := ⟨a, b, [], [], [], [], 4, 4⟩

end AppNet

/-- The packets of one write call, of which the last one has the flag `l`. -/
def flagged (l : Bool) : List Bytes → List (Bool × Bytes)
  | [] => []
  | p :: ps => (l && ps.isEmpty, p) :: flagged l ps

/-- The encrypted packets `raw` have the given flags and plaintexts; the nonces are `n`, `n + 2`, … -/
inductive SealedAll (L : Lib) (key : Bytes) : Nat → List (Bool × Bytes) → List Bytes → Prop
  | nil (n) : SealedAll L key n [] []
  | cons {n raw ps} (l : Bool) (p c : Bytes) : L.box p (Spec.nonce n) key = .ok c → SealedAll L key (n + 2) ps raw →
      SealedAll L key n ((l, p) :: ps) (Spec.encrypted l c :: raw)

/-- The plaintext packets of the write calls of an application; the times in them are readings of the clock `c`. -/
def packetsOf (c : Clock) (calls : List AppCall) : List (Bool × Bytes) :=
  calls.flatMap fun x => flagged x.last (appPackets (c.now x.tick) x.msgs)

/-- The messages `la` from the client and `lb` from the server in a session in which the application programs make the
write calls `ca` and `cb`: M1; then, encrypted with the nonces 1, 3, 5, …, M4 and the packets of the client's calls.
M2; then, encrypted with the nonces 2, 4, 6, …, M3 and the packets of the server's calls. -/
def Transcript (L : Lib) (cc cs : Clock) (cfgC : ClientCfg) (cfgS : ServerCfg) (kc ks : KeyPair)
    (ca cb : List AppCall) (la lb : List Bytes) : Prop :=
  ∃ key h1 h2 s3 s4 rawA rawB, KeysOf L cc cs cfgS.bufferM2 kc ks key h1 h2 ∧
    L.sign ([0x53, 0x43, 0x2d, 0x53, 0x49, 0x47, 0x30, 0x31] ++ h1 ++ h2) cfgS.sigKp.sec = .ok s3 ∧
    L.sign ([0x53, 0x43, 0x2d, 0x53, 0x49, 0x47, 0x30, 0x32] ++ h1 ++ h2) cfgC.sigKp.sec = .ok s4 ∧
    la = Spec.m1 (cc.first 0) kc.pub none :: rawA ∧
    SealedAll L key 1 ((false, Spec.m4 (cc.now (if cfgC.bufferM4 then 4 else 3)) cfgC.sigKp.pub (s4.take 64)) ::
      packetsOf cc ca) rawA ∧
    lb = Spec.m2 false false (if cfgS.bufferM2 then cs.first 2 else cs.first 1) ks.pub :: rawB ∧
    SealedAll L key 2 ((false, Spec.m3 (if cfgS.bufferM2 then cs.first 2 else cs.now 2) cfgS.sigKp.pub (s3.take 64)) ::
      packetsOf cs cb) rawB

/-- The number of bytes that one write call of an application puts on the channel: an encrypted packet has two bytes of
header and sixteen of authenticator; an app packet has six bytes before the message; a multi app packet has eight bytes,
and two before each message. -/
def callBytes (ms : List Bytes) : Nat :=
  if 2 ≤ ms.length ∧ ∀ m ∈ ms, m.length ≤ 65535 then 26 + (ms.map fun m => m.length + 2).sum
  else (ms.map fun m => m.length + 24).sum

/-- The number of bytes that the write calls of an application put on the channel. -/
def wireBytes (calls : List AppCall) : Nat := (calls.map fun c => callBytes c.msgs).sum

/-- The clock answers as a `OneTwoThreeTimeKeeper` with the attribute `t` does: `l` are the numbers of the calls of the time
objects that are calls of the time keeper, and which. -/
def Counts (c : Clock) : Nat → List (Nat × KeeperOp) → Prop
  | _, [] => True
  | t, (i, .first) :: l => c.first i = (oneTwoThree .first t).1 ∧ Counts c (oneTwoThree .first t).2 l
  | t, (i, .now) :: l => c.now i = (oneTwoThree .now t).1 ∧ Counts c (oneTwoThree .now t).2 l

/-- `party`, also returning how often the time objects have been called. -/
def partyN (L : Lib) (c : Clock) {β : Type} : IT env β → Nat → IT appSig (β × Nat)
  | .ret b, i => .ret (b, i)
  | .op .read k, i => .op (S := appSig) .read fun r => partyN L c (k r) i
  | .op (.write ms l) k, i => .op (S := appSig) (.write ms l) fun r => partyN L c (k r) i
  | .op .firstTime k, i => partyN L c (k (.ok (c.first i))) (i + 1)
  | .op .time k, i => partyN L c (k (.ok (c.now i))) (i + 1)
  | .op (.report t) k, i => partyN L c (k (c.report i t)) (i + 1)
  | .op (.check t) k, i => partyN L c (k (c.check i t)) (i + 1)
  | .op (.sign m sk) k, i => partyN L c (k (L.sign m sk)) i
  | .op (.signOpen sm pk) k, i => partyN L c (k (L.signOpen sm pk)) i
  | .op (.hash m) k, i => partyN L c (k (L.hash m)) i
  | .op (.beforenm pk sk) k, i => partyN L c (k (L.beforenm pk sk)) i
  | .op (.box m n key) k, i => partyN L c (k (L.box m n key)) i
  | .op (.boxOpen d n key) k, i => partyN L c (k (L.boxOpen d n key)) i

/-- A program on a `MitmChannel`, given the times read from the clock; the log never raises. -/
def quiet (clk : Nat → Nat) {β : Type} : IT mitmSig β → Nat → IT appSig β
  | .ret b, _ => .ret b
  | .op .read k, i => .op (S := appSig) .read fun r => quiet clk (k r) i
  | .op (.write ms l) k, i => .op (S := appSig) (.write ms l) fun r => quiet clk (k r) i
  | .op .clock k, i => quiet clk (k (.ok (clk i))) (i + 1)
  | .op (.info _) k, i => quiet clk (k (.ok ())) i

/-- The clients of dev/example_session1.py:52-76 and dev/example_session3.py:69-122: the handshake on a `MitmChannel` whose
attributes are `s`, a look at the counters of bytes read and written, the program on the application channel, and another
look at the counters. -/
def countedClient (L : Lib) (c : Clock) {β : Type} (cfg : ClientCfg) (prog : IT appSig β) (s : MitmSt) :
    IT mitmSig ((Except Err β × ClientSt) × (Nat × Nat) × (Nat × Nat)) :=
  (Mitm.run (partyN L c (Client.handshake cfg Client.init) 0) s).bind fun ((r, i), s1) =>
    (Mitm.run (party L c (clientAfter prog r) i) s1).bind fun (x, s2) =>
      .ret (x, (s1.counterRead, s1.counterWrite), (s2.counterRead, s2.counterWrite))

end Salt.Spec
