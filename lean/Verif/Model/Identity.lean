import Verif.Model.Go
/-!
# Identities (identity.go)

Calls of `NewIdentity` on one directory, by any number of goroutines or processes, as a transition system. The file
system calls are the atomic steps, each of them may fail, and every caller may crash between any two of them.

Simplifications:
* `pem.Encode` and `pem.Decode` are parameters with the laws of `Pem`; `Model/Pem.lean` has an instance. Encoding writes
  the text in pieces of any size. `ioutil.ReadFile` reads a file at once.
* An Ed25519 private key is 64 bytes of which the last 32 are the public key (RFC 8032, `PrivateKey.Public()` of
  crypto/ed25519); nothing else about it matters here. `rand.Reader` gives any key.
* Nobody but `NewIdentity` changes the directory. A file descriptor that is not closed has no effect here.
* All errors are one outcome (`failed`).
-/
namespace Verif.Identity

/-- `encoding/pem`: `encode true` makes the text for a private key, `encode false` the text for a public key. -/
structure Pem where
  encode : Bool → Bytes → Bytes
  decode : Bytes → Option Bytes
  decode_encode : ∀ t b, decode (encode t b) = some b
  decode_nil : decode [] = none
  /-- a text that was not written to its end can not be read as something else -/
  decode_take : ∀ t b k, decode ((encode t b).take k) = none ∨ decode ((encode t b).take k) = some b
  /-- the length of the text is given by the length of the key -/
  length_encode : ∀ t b b', b.length = b'.length → (encode t b).length = (encode t b').length

structure Keys where
  pub : Bytes
  priv : Bytes
  deriving DecidableEq, Repr

/-- `privKey.Public()`. -/
def publicOf (priv : Bytes) : Bytes := priv.drop 32

def Keys.of (priv : Bytes) : Keys := ⟨publicOf priv, priv⟩

inductive KeyErr where
  | wrongLength (expected real : Nat)
  | cannotRead
  deriving DecidableEq, Repr

/-- `NewIdentityFromPrivateKey` (identity.go:80-92). -/
def newIdentityFromPrivateKey (priv : Bytes) : Outcome KeyErr Keys :=
  if priv.length ≠ 64 then .err (.wrongLength 64 priv.length) else .ok ⟨publicOf priv, priv⟩

/-- `NewRemoteIdentityFromPublicKey` (identity.go:114-125). -/
def newRemoteIdentityFromPublicKey (pub : Bytes) : Outcome KeyErr Keys :=
  if pub.length ≠ 32 then .err (.wrongLength 32 pub.length) else .ok ⟨pub, []⟩

/-- `loadPublicKeyFromFile` and `loadPrivateKeyFromFile` (identity.go:188-214) without reading the file: `block` is nil
when there is no PEM block, and `block.Bytes` then panics. -/
def parseKey (P : Pem) (size : Nat) (text : Bytes) : Outcome KeyErr Bytes :=
  match P.decode text with
  | none => .panic
  | some b => if b.length ≠ size then .err (.wrongLength size b.length) else .ok b

/-- `NewRemoteIdentity` (identity.go:100-107) for the contents of the file, if it can be read. -/
def newRemoteIdentity (P : Pem) (file : Option Bytes) : Outcome KeyErr Keys :=
  match file with
  | none => .err .cannotRead
  | some text =>
    match parseKey P 32 text with
    | .ok b => .ok ⟨b, []⟩
    | .err e => .err e
    | .panic => .panic
    | .block => .block

/-- The directory: `id_ed25519` and `id_ed25519.pub`. -/
structure Dir where
  priv : Option Bytes
  pub : Option Bytes
  deriving DecidableEq, Repr

/-- Where a call of `NewIdentity` is (identity.go:70-73, 145-243). -/
inductive PC where
  /-- at `os.MkdirAll` (226) -/
  | start
  /-- at `os.Stat` of the private key (230) -/
  | stat
  /-- at `ed25519.GenerateKey` (174) -/
  | generate
  /-- at `os.OpenFile` of the private key (146) -/
  | openPriv (k : Bytes)
  /-- in `pem.Encode` of the private key; `off` bytes are written (157) -/
  | writePriv (k : Bytes) (off : Nat)
  /-- at `os.OpenFile` of the public key (146) -/
  | openPub (k : Bytes)
  /-- in `pem.Encode` of the public key (157) -/
  | writePub (k : Bytes) (off : Nat)
  /-- at `ioutil.ReadFile` of the private key (203) -/
  | read
  /-- at `os.Stat` of the public key (235) -/
  | statPub (k : Bytes)
  /-- returned without an error -/
  | done (k : Keys)
  /-- returned an error -/
  | failed
  | panicked
  /-- crashed -/
  | dead
  deriving DecidableEq, Repr

inductive Ev where
  /-- the system call succeeds; for `os.Stat` also: it says that there is no such file -/
  | go
  /-- the system call fails -/
  | fail
  /-- the generated private key -/
  | key (k : Bytes)
  /-- that many bytes are written -/
  | write (n : Nat)
  deriving DecidableEq, Repr

/-- Writing `p` at `off`; the file is not truncated when it is opened (identity.go:146). -/
def writeAt (f : Bytes) (off : Nat) (p : Bytes) : Bytes := f.take off ++ p ++ f.drop (off + p.length)

/-- The next step of a call. -/
def callStep (P : Pem) (d : Dir) : PC → Ev → Option (Dir × PC)
  | .start, .go => some (d, .stat)
  | .start, .fail => some (d, .failed)
  | .stat, .go => some (d, if d.priv = none then .generate else .read)
  | .stat, .fail => some (d, .read)
  | .generate, .key k => if k.length = 64 then some (d, .openPriv k) else none
  | .generate, .fail => some (d, .failed)
  | .openPriv k, .go => some ({ d with priv := some (d.priv.getD []) }, .writePriv k 0)
  | .openPriv _, .fail => some (d, .failed)
  | .writePriv k off, .write n =>
    if 0 < n ∧ off + n ≤ (P.encode true k).length then
      some ({ d with priv := d.priv.map (writeAt · off (((P.encode true k).drop off).take n)) }, .writePriv k (off + n))
    else none
  | .writePriv k off, .go => if off = (P.encode true k).length then some (d, .openPub k) else none
  | .writePriv _ _, .fail => some (d, .failed)
  | .openPub k, .go => some ({ d with pub := some (d.pub.getD []) }, .writePub k 0)
  | .openPub _, .fail => some (d, .failed)
  | .writePub k off, .write n =>
    if 0 < n ∧ off + n ≤ (P.encode false (publicOf k)).length then
      some ({ d with pub := d.pub.map (writeAt · off (((P.encode false (publicOf k)).drop off).take n)) },
        .writePub k (off + n))
    else none
  | .writePub k off, .go =>
    if off = (P.encode false (publicOf k)).length then some (d, .done (.of k)) else none
  | .writePub _ _, .fail => some (d, .failed)
  | .read, .go =>
    match d.priv with
    | none => some (d, .failed)
    | some text =>
      match parseKey P 64 text with
      | .ok k => some (d, .statPub k)
      | .panic => some (d, .panicked)
      | _ => some (d, .failed)
  | .read, .fail => some (d, .failed)
  | .statPub k, .go => some (d, if d.pub = none then .openPub k else .done (.of k))
  | .statPub k, .fail => some (d, .done (.of k))
  | _, _ => none

/-- The directory and all calls that were ever made. -/
structure State where
  dir : Dir
  calls : List PC
  deriving DecidableEq, Repr

inductive Act where
  /-- somebody calls `NewIdentity` -/
  | call
  /-- call number `i` goes on -/
  | run (i : Nat) (e : Ev)
  /-- the process of call number `i` crashes -/
  | crash (i : Nat)
  deriving DecidableEq, Repr

/-- Has the call ended? -/
def PC.ended : PC → Bool
  | .done _ | .failed | .panicked | .dead => true
  | _ => false

def step (P : Pem) (s : State) : Act → Option State
  | .call => some { s with calls := s.calls ++ [.start] }
  | .run i e =>
    match s.calls[i]? with
    | none => none
    | some pc =>
      match callStep P s.dir pc e with
      | none => none
      | some (d, pc') => some ⟨d, s.calls.set i pc'⟩
  | .crash i =>
    match s.calls[i]? with
    | none => none
    | some pc => if pc.ended then none else some { s with calls := s.calls.set i .dead }

def State.init : State := ⟨⟨none, none⟩, []⟩

def runActs (P : Pem) : State → List Act → Option State
  | s, [] => some s
  | s, a :: as =>
    match step P s a with
    | some s' => runActs P s' as
    | none => none

end Verif.Identity
