import Verif.Model.AppChannel

/-!
# The application channel used by several tasks (saltchannel/v2/app_channel_v2.py, encrypted_channel_v2.py)

`Py` programs carry the attributes of their object along, which is right as long as nobody else uses the object.
When several asyncio tasks share a channel, another task may run, and change attributes, wherever a coroutine
awaits something that is not ready.  Here the methods of the two channels are written once more, with every access to
an attribute of the shared object as a separate operation.
-/

namespace Salt

/-- Operations of a coroutine: read or assign the attributes of the shared object, or operate on the environment. -/
inductive ShOp (σ : Type)
  | get
  | put (s : σ)
  | env (e : EnvOp)

/-- What they return. -/
abbrev ShOp.Resp {σ : Type} : ShOp σ → Type
  | .get => σ
  | .put _ => Unit
  | .env e => e.Resp

/-- Signature of coroutines sharing an object with attributes `σ`. -/
abbrev sh (σ : Type) : Sig := ⟨ShOp σ, ShOp.Resp⟩

/-- A coroutine that ends with a value or an exception. -/
def Co (σ α : Type) : Type := IT (sh σ) (Except Err α)

namespace Co

variable {σ τ α β : Type}

/-- Statement sequencing: an exception skips the rest. -/
def andThen (m : Co σ α) (f : α → Co σ β) : Co σ β :=
  IT.bind m fun
    | .ok a => f a
    | .error e => .ret (.error e)

instance : Monad (Co σ) where
  pure a := .ret (.ok a)
  bind := andThen

/-- `raise e`. -/
def raise (e : Err) : Co σ α := .ret (.error e)

/-- A computation without effects that may raise. -/
def lift (x : Except Err α) : Co σ α := .ret x

/-- Read the attributes. -/
def getSt : Co σ σ := .op (S := sh σ) .get .ret

/-- Assign attributes. -/
def modifySt (f : σ → σ) : Co σ Unit := do
  let s ← getSt
  .op (S := sh σ) (.put (f s)) .ret

/-- Perform an operation of the environment. -/
def env (e : EnvOp) : Co σ e.Resp := .op (S := sh σ) (.env e) .ret

/-- `try: m  except ...: h`. -/
def onError (m : Co σ α) (h : Err → Co σ α) : Co σ α :=
  IT.bind m fun
    | .ok a => .ret (.ok a)
    | .error e => h e

/-- A coroutine of an object stored in an attribute. -/
def zoom {β : Type} (get : σ → τ) (set : τ → σ → σ) : IT (sh τ) β → IT (sh σ) β
  | .ret b => .ret b
  | .op .get k => .op (S := sh σ) .get fun r => zoom get set (k (r.map get))
  | .op (.put t) k => .op (S := sh σ) .get fun
      | .ok s => .op (S := sh σ) (.put (set t s)) fun r => zoom get set (k r)
      | .error e => zoom get set (k (.error e))
  | .op (.env e) k => .op (S := sh σ) (.env e) fun r => zoom get set (k r)

/-! ### EncryptedChannelV2 -/

/-- `encrypt`, encrypted_channel_v2.py:76-77. -/
def encrypt (clear : Bytes) : Co EncSt Bytes := do
  let s ← getSt
  let n ← lift (nonceBytes s.writeNonce s.sessionNonce)
  env (.box clear n s.key)

/-- `decrypt`, encrypted_channel_v2.py:79-83. -/
def decrypt (encrypted : Bytes) : Co EncSt Bytes :=
  onError (do
    let s ← getSt
    let n ← lift (nonceBytes s.readNonce s.sessionNonce)
    env (.boxOpen encrypted n s.key))
  fun e => if e = .badEncryptedData then raise .badPeer else raise e

/-- `unwrap`, encrypted_channel_v2.py:92-96. -/
def unwrap (epBytes : Bytes) : Co EncSt Bytes := do
  let ep ← lift (EncPkt.ctor epBytes)
  modifySt fun s => { s with lastFlag := EncPkt.lastFlag ep ≠ 0 }
  lift (EncPkt.body ep)

/-- The choice of the raw packet in `read`, encrypted_channel_v2.py:58-62. -/
def fetch : Co EncSt Bytes := do
  let s ← getSt
  if s.pushback ≠ [] then do
    modifySt fun s => { s with pushback := [] }
    return s.pushback
  else env .read

/-- The rest of `read` once there is a packet, encrypted_channel_v2.py:64-66. -/
def opened (raw : Bytes) : Co EncSt Bytes := do
  let body ← unwrap raw
  let clear ← decrypt body
  modifySt Enc.advanceRead
  return clear

/-- `read`, encrypted_channel_v2.py:57-66. -/
def encRead : Co EncSt Bytes := do
  let raw ← fetch
  opened raw

/-- The loop of `write`, encrypted_channel_v2.py:70-73. -/
def encryptAll (isLast : Bool) : List Bytes → Co EncSt (List Bytes)
  | [] => return []
  | m :: ms => do
    let c ← encrypt m
    modifySt Enc.advanceWrite
    let rest ← encryptAll isLast ms
    return Enc.wrap c (isLast && ms.isEmpty) :: rest

/-- `write`, encrypted_channel_v2.py:68-74. -/
def encWrite (msgs : List Bytes) (isLast : Bool) : Co EncSt Unit := do
  let msgList ← encryptAll isLast msgs
  env (.write msgList isLast)

/-! ### AppChannelV2 -/

/-- A coroutine of `self.channel`. -/
def onEnc {α : Type} (m : Co EncSt α) : Co AppSt α := zoom AppSt.enc (fun e s => { s with enc := e }) m

/-- The rest of `read` once `self.channel.read()` has returned `raw`, app_channel_v2.py:30-39. -/
def parsed (raw : Bytes) : Co AppSt Bytes := do
  let ap ← lift (AppPkt.ctor raw false)
  if AppPkt.packetType ap = PacketType.app.value then do
    lift (AppPkt.validate ap)
    let _ ← env (.check (AppPkt.time ap))
    lift (AppPkt.payload ap)
  else do
    let mp ← lift (MultiApp.ctor raw)
    let _ ← env (.check mp.time)
    modifySt fun s => { s with readQ := s.readQ ++ (mp.opt.getD []).drop 1 }
    match mp.opt.getD [] with
    | m :: _ => return m
    | [] => raise .indexError

/-- `read`, app_channel_v2.py:25-39. -/
def read : Co AppSt Bytes := do
  let s ← getSt
  match s.readQ with
  | m :: q => do
    modifySt fun s => { s with readQ := q }
    return m
  | [] => do
    let raw ← onEnc encRead
    parsed raw

/-- `write`, app_channel_v2.py:41-64. -/
def write (msgs : List Bytes) (isLast : Bool) : Co AppSt Unit := do
  let t ← env .time
  let s ← getSt
  match s.bufferedM4 with
  | some m4 => do
    modifySt fun s => { s with bufferedM4 := none }
    onEnc (encWrite ((M34.setTime m4 t).toBytes :: App.rawMsgs t msgs) isLast)
  | none => onEnc (encWrite (App.rawMsgs t msgs) isLast)

/-- The operations of an application on its channel. -/
def handle : (e : AppOp) → Co AppSt e.Resp
  | .read => read
  | .write msgs isLast => write msgs isLast

/-- A task: an application program that runs on a shared `AppChannelV2`. -/
def task {β : Type} : IT appSig β → IT (sh AppSt) β
  | .ret b => .ret b
  | .op e k => IT.bind (handle e) fun r => task (k r)

/-- A coroutine running alone, without other tasks: the attributes are its own. -/
def alone {β : Type} : IT (sh σ) β → σ → IT Salt.env (β × σ)
  | .ret b, s => .ret (b, s)
  | .op .get k, s => alone (k (.ok s)) s
  | .op (.put s') k, _ => alone (k (.ok ())) s'
  | .op (.env e) k, s => .op (S := Salt.env) e fun r => alone (k r) s

end Co

end Salt
