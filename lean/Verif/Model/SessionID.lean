import Verif.Model.Go
/-!
# Session IDs

`sessionIDGetterType.Get` (session.go:361-377) and the encoding of a `SessionID` (session.go:81-98).

The system clock is the list of values that successive calls of `uint64(timeNow().UnixNano())` give; it is
arbitrary, it may stand still and it may go back. `Get` holds the lock of the getter while it reads the clock
and updates `prevTime` (session.go:362, 373), so calls of several goroutines take effect one after the other,
in the order in which they get the lock; a program run is therefore a number of successive calls.

Not modelled: `sessionIDGetter.rand.Uint64()` (session.go:375) is called after the lock was released on a
`mathrand.Rand`, which is not safe for concurrent use; here `Random` is arbitrary.
-/
namespace Verif.SessionID

/-- `SessionID` (session.go:81-84). -/
structure ID where
  createdAt : W64
  random : W64
  deriving DecidableEq, Repr

/-- The loop of `Get` (session.go:363-368): read the clock until it differs from `prevTime`. `none`: the loop
is still running when the given readings are used up. The second result is the clock that remains. -/
def readClock (prev : W64) : List W64 → Option (W64 × List W64)
  | [] => none
  | t :: ts => if t ≠ prev then some (t, ts) else readClock prev ts

/-- The critical section of `Get` (session.go:362-373): the new value of `CreatedAt`, which is also the new
`prevTime`. -/
def get (prev : W64) (clock : List W64) : Option (W64 × List W64) :=
  match readClock prev clock with
  | none => none
  | some (t, ts) => some (if t ≤ prev then prev + 1 else t, ts)

/-- `n` successive calls of `Get` (session.go:361-377): the `CreatedAt` values in order. `none`: one of the
calls does not return with the given readings. -/
def getMany (prev : W64) (clock : List W64) : Nat → Option (List W64)
  | 0 => some []
  | n + 1 =>
    match get prev clock with
    | none => none
    | some (t, ts) => (getMany t ts n).map (t :: ·)

/-- `SessionID.Bytes` (session.go:87-91). -/
def bytes (i : ID) : Bytes := putLE 8 i.createdAt.toNat ++ putLE 8 i.random.toNat

/-- `SessionID.FillFromBytes` (session.go:95-98): `b[0:]`, `b[8:]` and `Uint64` (which looks at index 7)
panic on a slice that is too short; bytes after the sixteenth are ignored. -/
def fillFromBytes (b : Bytes) : Outcome Unit ID :=
  if b.length < 16 then .panic
  else .ok ⟨BitVec.ofNat 64 (getLE (b.take 8)), BitVec.ofNat 64 (getLE ((b.drop 8).take 8))⟩

end Verif.SessionID
