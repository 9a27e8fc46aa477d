import Verif.Model.Signature
/-!
# What the constructors of `Identity` return: identity.go:70-125, 172-243; errors.go:83-115

`Verif.Identity` follows the files; here is what the caller of one call gets: the identity, also together with an error, and the errors
with their Go types. What the file system and the random generator answer is an argument (`Env`).

Simplifications: an error is the list of the errors that are wrapped in each other (what `errors.As` looks through), each with its
dynamic type; `xerrors.Errorf` with `%w`, `errors.New` and `errors.Wrap` of github.com/xaionaro-go/errors put an `*errors.Error` in front of
what they wrap, which is trusted, as this library is not part of the repository; texts are left out.
-/
namespace Verif.Constructors
open Verif.Identity

/-- One error in a chain: its dynamic type, and its fields. -/
inductive Dyn where
  /-- `*errors.Error` of the library -/
  | lib
  /-- an error of package `os` or `crypto/rand` -/
  | sys
  /-- `ErrWrongKeyLength` (errors.go:83-88) -/
  | wrongLength (expected real : Nat)
  /-- `*ErrWrongKeyLength` -/
  | wrongLengthPtr (expected real : Nat)
  /-- `ErrCannotLoadKeys` (errors.go:101-105) -/
  | cannotLoadKeys
  deriving DecidableEq, Repr

abbrev Chain := List Dyn

/-- `newErrWrongKeyLength` (errors.go:90-94). -/
def newErrWrongKeyLength (expected real : Nat) : Chain := [.lib, .wrongLength expected real]

/-- `newErrCannotLoadKeys` (errors.go:107-113). -/
def newErrCannotLoadKeys (orig : Chain) : Chain := [.lib, .cannotLoadKeys] ++ orig

/-- `xerrors.Errorf("…: %w", err)`. -/
def errorf (e : Chain) : Chain := .lib :: e

/-- An identity or nil, and an error or nil. -/
structure Ret where
  identity : Option Keys
  err : Option Chain
  deriving DecidableEq, Repr

/-- `NewIdentityFromPrivateKey` (identity.go:80-92). -/
def newIdentityFromPrivateKey (priv : Bytes) : Ret :=
  if priv.length ≠ 64 then ⟨none, some [.wrongLengthPtr 64 priv.length]⟩ else ⟨some (.of priv), none⟩

/-- `NewRemoteIdentityFromPublicKey` (identity.go:114-125). -/
def newRemoteIdentityFromPublicKey (pub : Bytes) : Ret :=
  if pub.length ≠ 32 then ⟨none, some [.wrongLengthPtr 32 pub.length]⟩ else ⟨some ⟨pub, []⟩, none⟩

/-- `loadPublicKeyFromFile` and `loadPrivateKeyFromFile` (identity.go:188-214); `file` is what `ReadFile` gives. -/
def loadKey (P : Pem) (size : Nat) (file : Option Bytes) : Outcome Chain Bytes :=
  match file with
  | none => .err (errorf [.sys])
  | some text =>
    match P.decode text with
    | none => .panic
    | some b => if b.length ≠ size then .err (newErrWrongKeyLength size b.length) else .ok b

/-- `NewRemoteIdentity` (identity.go:100-107). -/
def newRemoteIdentity (P : Pem) (file : Option Bytes) : Outcome Empty Ret :=
  match loadKey P 32 file with
  | .ok b => .ok ⟨some ⟨b, []⟩, none⟩
  | .err e => .ok ⟨none, some (errorf e)⟩
  | .panic => .panic
  | .block => .block

/-- What one call of `NewIdentity` finds. -/
structure Env where
  /-- does `MkdirAll` succeed? -/
  mkdir : Bool
  /-- does `Stat` say that there is no private key? -/
  absent : Bool
  /-- the private key of `GenerateKey`, if it succeeds -/
  gen : Option Bytes
  /-- are the keys saved? -/
  savePriv : Bool
  savePub : Bool
  /-- what `ReadFile` of the private key gives -/
  file : Option Bytes
  /-- does `Stat` say that there is no public key? -/
  pubAbsent : Bool

/-- `saveKeyToPemFile` (identity.go:145-163): an error is wrapped once. -/
def save (ok : Bool) : Option Chain := if ok then none else some (errorf [.sys])

/-- `generateAndSaveKeys` (identity.go:172-186): the keys that are left in the identity, and the error. -/
def generateAndSaveKeys (env : Env) : Keys × Option Chain :=
  match env.gen with
  | none => (⟨[], []⟩, some (errorf [.sys]))
  | some k =>
    match save env.savePriv with
    | some e => (.of k, some (errorf e))
    | none =>
      match save env.savePub with
      | some e => (.of k, some (errorf e))
      | none => (.of k, none)

/-- `loadKeys` (identity.go:216-223). -/
def loadKeys (P : Pem) (env : Env) : Outcome Chain Keys :=
  match loadKey P 64 env.file with
  | .ok k => .ok (.of k)
  | .err e => .err (errorf e)
  | .panic => .panic
  | .block => .block

/-- `prepareKeys` (identity.go:225-243). -/
def prepareKeys (P : Pem) (env : Env) : Outcome Empty (Keys × Option Chain) :=
  if !env.mkdir then .ok (⟨[], []⟩, some (errorf [.sys]))
  else if env.absent then .ok (generateAndSaveKeys env)
  else
    match loadKeys P env with
    | .ok k =>
      if env.pubAbsent then .ok (k, (save env.savePub).map newErrCannotLoadKeys)
      else .ok (k, none)
    | .err e => .ok (⟨[], []⟩, some (newErrCannotLoadKeys e))
    | .panic => .panic
    | .block => .block

/-- `NewIdentity` (identity.go:70-73): `return i, i.prepareKeys(keysDir)`. -/
def newIdentity (P : Pem) (env : Env) : Outcome Empty Ret :=
  match prepareKeys P env with
  | .ok (k, e) => .ok ⟨some k, e⟩
  | .err e => nomatch e
  | .panic => .panic
  | .block => .block

end Verif.Constructors
