/-!
# Go machinery used by the models

Fixed width words, Go shift semantics, little endian encoding (`binaryOrderType`, message.go:20
`binaryOrderType = binary.LittleEndian`), and outcomes of Go calls.
-/
namespace Verif

/-- Go `uint64` (and `uint`, on the 64-bit platforms the code is used on). -/
abbrev W64 := BitVec 64
/-- Go `uint32`. -/
abbrev W32 := BitVec 32
/-- Go `byte`. -/
abbrev Byte := BitVec 8
/-- Go `[]byte`. -/
abbrev Bytes := List Byte

/-- Go `v << n` for `v uint64`, `n uint`: a shift by 64 or more gives 0. -/
def goShl (v n : W64) : W64 := v <<< n.toNat

/-- Go `v >> n` for `v uint64`, `n uint`: a shift by 64 or more gives 0. -/
def goShr (v n : W64) : W64 := v >>> n.toNat

/-- How a Go call may end: with a result, with an error value, with a panic, or never
(blocked forever / endless loop). -/
inductive Outcome (ε α : Type) where
  | ok (a : α)
  | err (e : ε)
  | panic
  | block
  deriving DecidableEq, Repr

/-- `binary.LittleEndian.PutUintNN` on `n` bytes (message.go:20; the standard library function writes
the least significant byte first). -/
def putLE : Nat → Nat → Bytes
  | 0, _ => []
  | n + 1, v => BitVec.ofNat 8 v :: putLE n (v / 256)

/-- `binary.LittleEndian.UintNN` (message.go:20). -/
def getLE : Bytes → Nat
  | [] => 0
  | b :: bs => b.toNat + 256 * getLE bs

end Verif
