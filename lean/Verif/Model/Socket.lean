import Verif.Model.Prog

/-!
# SocketChannel, AsyncioChannel (saltchannel/channel.py, saltchannel/dev/client_server_a.py)
-/

namespace Salt

/-- Operations on a socket: `recv(n)` and `sendall(b)`. -/
inductive SockOp
  | recv (n : Nat)
  | sendall (b : Bytes)
  deriving DecidableEq, Repr

/-- What they return. -/
abbrev SockOp.Resp : SockOp → Type
  | .recv _ => Bytes
  | .sendall _ => Unit

/-- Signature of programs on a socket. -/
abbrev sock : Sig := ⟨SockOp, SockOp.Resp⟩

/-- Perform a socket operation. -/
abbrev Py.sock {σ : Type} (e : SockOp) : Py Salt.sock σ e.Resp := Py.call (S := Salt.sock) e

/-- `struct.pack('<i', n)` for `n ≥ 0`: struct.error when out of range. -/
def packI (n : Nat) : Except Err Bytes :=
  if n < 2 ^ 31 then .ok (leBytes 4 n) else .error .structError

/-- `struct.unpack('<i', b)[0]` for four bytes. -/
def unpackI (b : Bytes) : Int :=
  if leNat b < 2 ^ 31 then (leNat b : Int) else (leNat b : Int) - 2 ^ 32

/-- `b''.join([struct.pack('<i', len(msg)), bytes(msg)])`, channel.py:85 and
dev/client_server_a.py:14. -/
def frameMsg (m : Bytes) : Except Err Bytes :=
  match packI m.length with
  | .ok p => .ok (p ++ m)
  | .error e => .error e

namespace SocketChannel

/-- `recvall(count)` for `count ≥ 0`, channel.py:91-98.  A `recv` returning more than requested (which
the operating system excludes) would make `count` negative and the next `recv` raise ValueError. -/
def recvall (buf : Bytes) (count : Nat) : Py sock Unit (Bytes × Bool) :=
  if count = 0 then return (buf, true)
  else do
    let newbuf : Bytes ← Py.sock (.recv count)
    if _h : newbuf = [] then return (buf, false)
    else if newbuf.length ≤ count then recvall (buf ++ newbuf) (count - newbuf.length)
    else Py.raise .valueError
termination_by count
decreasing_by
  have : newbuf.length ≠ 0 := fun hl => _h (List.length_eq_zero_iff.mp hl)
  omega

/-- `read_sync`, channel.py:68-79 (and `read`, :62-63).  `recv` with the negative argument obtained
from a negative length prefix raises ValueError. -/
def readSync : Py sock Unit Bytes :=
  Py.onError (do
      let (lenBuf, success) ← recvall [] 4
      if ¬ success then Py.raise .comException
      else if unpackI lenBuf < 0 then Py.raise .valueError
      else do
        let (msg, success) ← recvall [] (unpackI lenBuf).toNat
        if ¬ success then Py.raise .comException
        else return msg)
    fun _ => Py.raise .comException

/-- The loop of `write_sync`, channel.py:84-85: `raw`. -/
def rawOf : List Bytes → Except Err Bytes
  | [] => .ok []
  | m :: ms => do
    let f ← frameMsg m
    let rest ← rawOf ms
    return f ++ rest

/-- `write_sync`, channel.py:81-89 (and `write`, :65-66); `is_last` is ignored. -/
def writeSync (msgs : List Bytes) : Py sock Unit Unit :=
  Py.onError (do
      let raw ← Py.lift (rawOf msgs)
      Py.sock (.sendall raw))
    fun _ => Py.raise .comException

end SocketChannel

/-! ### The asyncio stream channel -/

/-- Operations of `AsyncioChannel` on asyncio's streams: `StreamReader.readexactly(n)` and
`StreamWriter.write(b)`; `drain()` only waits. -/
inductive StreamOp
  | readexactly (n : Int)
  | write (b : Bytes)
  | drain
  deriving DecidableEq, Repr

/-- What they return. -/
abbrev StreamOp.Resp : StreamOp → Type
  | .readexactly _ => Bytes
  | .write _ => Unit
  | .drain => Unit

/-- Signature of programs on an asyncio stream. -/
abbrev stream : Sig := ⟨StreamOp, StreamOp.Resp⟩

/-- Perform a stream operation. -/
abbrev Py.stream {σ : Type} (e : StreamOp) : Py Salt.stream σ e.Resp := Py.call (S := Salt.stream) e

namespace AsyncioChannel

/-- `SaltChannelStreamReader.read_msg`, dev/client_server_a.py:17-19, i.e. `AsyncioChannel.read`,
channel.py:46-47.  `not msg_len` is never true: `msg_len` is a one-element tuple. -/
def read : Py stream Unit Bytes := do
  let lenBuf ← Py.stream (.readexactly 4)
  Py.stream (.readexactly (unpackI lenBuf))

/-- The loop of `AsyncioChannel.write`, channel.py:50-51, with
`SaltChannelStreamWriter.write_msg`, dev/client_server_a.py:13-14. -/
def writeAll : List Bytes → Py stream Unit Unit
  | [] => return ()
  | m :: ms => do
    let f ← Py.lift (frameMsg m)
    let _ ← Py.stream (.write f)
    writeAll ms

/-- `AsyncioChannel.write`, channel.py:49-52. -/
def write (msgs : List Bytes) : Py stream Unit Unit := do
  writeAll msgs
  let _ ← Py.stream .drain
  return ()

/-- The state of an `asyncio.StreamReader` as far as `readexactly` sees it: bytes received so far
and not consumed, and the chunks the transport will still feed before end of file. -/
structure ReaderSt where
  buffer : Bytes
  segs : List Bytes

/-- `asyncio.StreamReader.readexactly(n)` (CPython's asyncio/streams.py): ValueError for a negative
`n`; while fewer than `n` bytes are buffered, wait for the next chunk, raising IncompleteReadError at
end of file. -/
def readexactly (n : Int) : ReaderSt → Except Err Bytes × ReaderSt
  | ⟨buf, segs⟩ =>
    if n < 0 then (.error .valueError, ⟨buf, segs⟩)
    else go buf segs n.toNat
where
  /-- The waiting loop. -/
  go (buf : Bytes) : List Bytes → Nat → Except Err Bytes × ReaderSt
    | [], n =>
      if n ≤ buf.length then (.ok (buf.take n), ⟨buf.drop n, []⟩)
      else (.error .incompleteReadError, ⟨[], []⟩)
    | seg :: segs, n =>
      if n ≤ buf.length then (.ok (buf.take n), ⟨buf.drop n, seg :: segs⟩)
      else go (buf ++ seg) segs n

end AsyncioChannel

end Salt
