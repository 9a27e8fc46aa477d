import Verif.Model.Go
/-!
# Specification of reassembly

A fragment is a start position and its bytes.
-/
namespace Verif.Spec

/-- A fragment: start position and content. -/
abbrev Frag := Nat × Bytes

/-- `f` is a piece of the message `m`. -/
def IsPiece (m : Bytes) (f : Frag) : Prop :=
  f.1 + f.2.length ≤ m.length ∧ f.2 = (m.drop f.1).take f.2.length

/-- Byte `k` is contained in one of the fragments. -/
def hasByte (fs : List Frag) (k : Nat) : Bool :=
  fs.any fun f => decide (f.1 ≤ k) && decide (k < f.1 + f.2.length)

/-- All `total` bytes are contained in the fragments. -/
def hasAll (fs : List Frag) (total : Nat) : Bool := (List.range total).all (hasByte fs)

/-- Number of a 64-byte block's first byte. -/
def blockStart (k : Nat) : Nat := k - k % 64

/-- What the code takes for "byte `k` was received": the start of every fragment is rounded down to
a multiple of 64. -/
def countsByte (fs : List Frag) (k : Nat) : Bool :=
  fs.any fun f => decide (blockStart f.1 ≤ k) && decide (k < f.1 + f.2.length)

/-- What the code takes for "everything was received". -/
def countsAll (fs : List Frag) (total : Nat) : Bool := (List.range total).all (countsByte fs)

/-- The buffer after receiving pieces of `m`: received bytes over the bytes `old` left by the
previous user of the slot. -/
def mixed (m old : Bytes) (fs : List Frag) : Bytes :=
  (List.range (max m.length old.length)).map fun k =>
    if hasByte fs k then m.getD k 0 else old.getD k 0

/-- Fragment number `j` of `m` cut into pieces of `n` bytes. -/
def chunk (m : Bytes) (n j : Nat) : Frag := (j * n, (m.drop (j * n)).take n)

end Verif.Spec
