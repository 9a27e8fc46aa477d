import Verif.Model.Go
/-!
# pending_chain.go: reassembly of one fragmented message
-/
namespace Verif.PendingChain

/-- `bits.OnesCount64`. -/
def onesCount (v : W64) : Nat := (List.range 64).countP fun i => v.getLsbD i

/-- `pendingChainIsSetSet` (pending_chain.go:9-14): the new word and the number of new bits. -/
def isSetSet (oldValue addValue : W64) : W64 × Nat :=
  let newValue := oldValue ||| addValue
  let diff := newValue ^^^ oldValue
  (newValue, onesCount diff)

/-- `setLeadingOnes64` (pending_chain.go:16-149), the literal table of the code. -/
def setLeadingOnes64 : Nat → W64
  | 0 => 0x0000000000000000
  | 1 => 0x8000000000000000
  | 2 => 0xc000000000000000
  | 3 => 0xe000000000000000
  | 4 => 0xf000000000000000
  | 5 => 0xf800000000000000
  | 6 => 0xfc00000000000000
  | 7 => 0xfe00000000000000
  | 8 => 0xff00000000000000
  | 9 => 0xff80000000000000
  | 10 => 0xffc0000000000000
  | 11 => 0xffe0000000000000
  | 12 => 0xfff0000000000000
  | 13 => 0xfff8000000000000
  | 14 => 0xfffc000000000000
  | 15 => 0xfffe000000000000
  | 16 => 0xffff000000000000
  | 17 => 0xffff800000000000
  | 18 => 0xffffc00000000000
  | 19 => 0xffffe00000000000
  | 20 => 0xfffff00000000000
  | 21 => 0xfffff80000000000
  | 22 => 0xfffffc0000000000
  | 23 => 0xfffffe0000000000
  | 24 => 0xffffff0000000000
  | 25 => 0xffffff8000000000
  | 26 => 0xffffffc000000000
  | 27 => 0xffffffe000000000
  | 28 => 0xfffffff000000000
  | 29 => 0xfffffff800000000
  | 30 => 0xfffffffc00000000
  | 31 => 0xfffffffe00000000
  | 32 => 0xffffffff00000000
  | 33 => 0xffffffff80000000
  | 34 => 0xffffffffc0000000
  | 35 => 0xffffffffe0000000
  | 36 => 0xfffffffff0000000
  | 37 => 0xfffffffff8000000
  | 38 => 0xfffffffffc000000
  | 39 => 0xfffffffffe000000
  | 40 => 0xffffffffff000000
  | 41 => 0xffffffffff800000
  | 42 => 0xffffffffffc00000
  | 43 => 0xffffffffffe00000
  | 44 => 0xfffffffffff00000
  | 45 => 0xfffffffffff80000
  | 46 => 0xfffffffffffc0000
  | 47 => 0xfffffffffffe0000
  | 48 => 0xffffffffffff0000
  | 49 => 0xffffffffffff8000
  | 50 => 0xffffffffffffc000
  | 51 => 0xffffffffffffe000
  | 52 => 0xfffffffffffff000
  | 53 => 0xfffffffffffff800
  | 54 => 0xfffffffffffffc00
  | 55 => 0xfffffffffffffe00
  | 56 => 0xffffffffffffff00
  | 57 => 0xffffffffffffff80
  | 58 => 0xffffffffffffffc0
  | 59 => 0xffffffffffffffe0
  | 60 => 0xfffffffffffffff0
  | 61 => 0xfffffffffffffff8
  | 62 => 0xfffffffffffffffc
  | 63 => 0xfffffffffffffffe
  | _ => 0xffffffffffffffff

/-- `pendingChain` (pending_chain.go:152-157).  `expected` and `received` are `uint64` in Go; here
naturals (`received` never exceeds 64 * len(IsSet)). -/
structure Chain where
  isSet : List W64
  data : Bytes
  expected : Nat
  received : Nat
  deriving DecidableEq, Repr

/-- The zero value, as created by `make([]pendingChain, n)` (session.go:515). -/
def empty : Chain := { isSet := [], data := [], expected := 0, received := 0 }

/-- `Reset` (pending_chain.go:159-166). -/
def reset (c : Chain) : Chain :=
  { c with expected := 0, received := 0, isSet := c.isSet.map fun _ => 0 }

/-- `Init` (pending_chain.go:168-177).  Simplification: `expectedLength+63` does not wrap; the only
caller bounds `expectedLength` by `MaxFragmentedMessageSize` (session.go:1049). -/
def init (c : Chain) (expectedLength : Nat) : Chain :=
  let c := { reset c with expected := expectedLength }
  if c.data.length ≥ expectedLength then c
  else { c with data := List.replicate expectedLength 0,
                isSet := List.replicate ((expectedLength + 63) / 64) 0 }

/-- Errors returned by `Merge`. -/
inductive MergeErr where
  | duplicate
  | outOfRange
  deriving DecidableEq, Repr

/-- Go `copy(dst[pos:], b)` on the underlying buffer `dst` (`pos ≤ len(dst)`). -/
def copyAt (dst : Bytes) (pos : Nat) (b : Bytes) : Bytes :=
  let b := b.take (dst.length - pos)
  dst.take pos ++ b ++ dst.drop (pos + b.length)

/-- The loop of `Merge` which marks whole words (pending_chain.go:201-205): `n` words from index
`i`.  `none` is an index-out-of-range panic. -/
def markWords (isSet : List W64) (i : Nat) : Nat → Option (List W64 × Nat)
  | 0 => some (isSet, 0)
  | n + 1 =>
    match isSet[i]? with
    | none => none
    | some v =>
      let r := isSetSet v 0xffffffffffffffff
      (markWords (isSet.set i r.1) (i + 1) n).map fun x => (x.1, r.2 + x.2)

/-- Marking of the last incomplete word (pending_chain.go:206-213); `i` is the word index. -/
def markTail (isSet : List W64) (i : Nat) (endPos : Nat) : Option (List W64 × Nat) :=
  let pos := endPos - endPos % 64
  if pos < endPos then
    match isSet[i]? with
    | none => none
    | some v =>
      let r := isSetSet v (setLeadingOnes64 (endPos - pos))
      some (isSet.set i r.1, r.2)
  else some (isSet, 0)

/-- `Merge` (pending_chain.go:179-220).  `startPos < 2^64` is the `uint64` of the fragment header;
`len(b)+StartPos` wraps as in Go.  `Data[pos:]` panics if `pos > len(Data)`. An error leaves the
chain unchanged.  The returned message is the whole `Data` slice as in Go. -/
def merge (c : Chain) (startPos : Nat) (b : Bytes) : Outcome MergeErr (Chain × Option Bytes) :=
  if c.received ≥ c.expected then .err .duplicate
  else
    let lastPos := (b.length + startPos) % 2 ^ 64
    if lastPos > c.expected then .err .outOfRange
    else
      let pos := startPos
      if pos > c.data.length then .panic
      else
        let data := copyAt c.data pos b
        let endPos := (pos + b.length) % 2 ^ 64
        let isSetPos := pos / 64
        let batchSetEndPos := endPos / 64
        match markWords c.isSet isSetPos (batchSetEndPos - isSetPos) with
        | none => .panic
        | some (isSet, n1) =>
          match markTail isSet (max isSetPos batchSetEndPos) endPos with
          | none => .panic
          | some (isSet, n2) =>
            let c' : Chain := { c with data := data, isSet := isSet,
                                       received := c.received + (n1 + n2) }
            if c'.received ≥ c'.expected then .ok (c', some c'.data) else .ok (c', none)

end Verif.PendingChain

namespace Verif.PendingChain

/-- A sequence of `Merge` calls on one chain, with the outcome of each; a panic ends it. -/
def feed : Chain → List (Nat × Bytes) → List (Outcome MergeErr (Option Bytes))
  | _, [] => []
  | c, f :: fs =>
    match merge c f.1 f.2 with
    | .ok (c', r) => .ok r :: feed c' fs
    | .err e => .err e :: feed c fs
    | .panic => [.panic]
    | .block => [.block]

/-- Invariant of every reassembly slot of a session (established by `make`, kept by `Reset`, `Init`
and `Merge`; see `Verif.Props.Reassembly`). -/
structure SlotOK (c : Chain) : Prop where
  isSetLen : c.isSet.length = (c.data.length + 63) / 64

end Verif.PendingChain
