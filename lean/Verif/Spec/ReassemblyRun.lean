import Verif.Spec.Reassembly
import Verif.Model.PendingChain
/-!
# Specification of the outcomes of a sequence of fragments
-/
namespace Verif.Spec
open PendingChain

/-- Outcomes for pieces `fs` of the message `m` arriving after the pieces `seen`: a fragment is
refused once everything counts as received; the fragment that makes everything count as received
returns the buffer; all others return nothing.  `old` are the bytes in the slot before. -/
def results (m old : Bytes) : List Frag → List Frag → List (Outcome MergeErr (Option Bytes))
  | _, [] => []
  | seen, f :: fs =>
    if countsAll seen m.length then .err .duplicate :: results m old seen fs
    else (if countsAll (seen ++ [f]) m.length then .ok (some (mixed m old (seen ++ [f])))
          else .ok none) :: results m old (seen ++ [f]) fs

/-- Outcomes for the fragments number `js` of a message of `len` bytes cut in pieces of `n` bytes,
arriving after the fragments number `seen`: `d` is delivered, exactly once, by the fragment which
is the last missing one; later fragments are refused; all others return nothing. -/
def deliverWhenAll (len n : Nat) (d : Bytes) :
    List Nat → List Nat → List (Outcome MergeErr (Option Bytes))
  | _, [] => []
  | seen, j :: js =>
    if (List.range ((len + n - 1) / n)).all (· ∈ seen) then
      .err .duplicate :: deliverWhenAll len n d seen js
    else (if (List.range ((len + n - 1) / n)).all (· ∈ seen ++ [j]) then .ok (some d)
          else .ok none) :: deliverWhenAll len n d (seen ++ [j]) js

end Verif.Spec
