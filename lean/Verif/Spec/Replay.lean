import Verif.Model.Go
/-!
# Specification of a replay filter

Independent of the bit table of the code: histories are lists of packet IDs with a verdict for each.
-/
namespace Verif.Spec

/-- IDs that got the verdict "accept", in order. -/
def accepted : List W64 → List Bool → List W64
  | id :: ids, true :: rs => id :: accepted ids rs
  | _ :: ids, false :: rs => accepted ids rs
  | _, _ => []

/-- The highest ID of a list, 0 for the empty list. -/
def highest : List W64 → Nat
  | [] => 0
  | id :: ids => max id.toNat (highest ids)

/-- No packet ID is accepted twice. -/
def NoReplay (ids : List W64) (rs : List Bool) : Prop := (accepted ids rs).Nodup

/-- The ideal replay filter that the code really implements: it remembers a set of IDs, but forgets
everything older when an ID jumps more than 64 above the highest one (`window` = number of IDs
covered, `seen` = remembered IDs). -/
structure Filter where
  latest : Nat
  seen : List Nat

/-- One step of the ideal filter. -/
def Filter.step (window : Nat) (f : Filter) (id : Nat) : Filter × Bool :=
  if id > f.latest then
    ({ latest := id, seen := id :: (if id - f.latest > 64 then [] else f.seen) }, true)
  else if id = f.latest then (f, false)
  else if f.latest - id ≥ window then (f, false)
  else if id ∈ f.seen then (f, false)
  else ({ f with seen := id :: f.seen }, true)

/-- Verdicts of the ideal filter for a history. -/
def Filter.run (window : Nat) : Filter → List Nat → List Bool
  | _, [] => []
  | f, id :: ids => (f.step window id).2 :: Filter.run window (f.step window id).1 ids

end Verif.Spec

namespace Verif.Spec

/-- No ID jumps more than 64 above the highest ID before it (the first one is arbitrary). -/
def SmallJumps (ids : List W64) : Prop :=
  ∀ pre id post, ids = pre ++ id :: post → pre ≠ [] → id.toNat ≤ highest pre + 64

/-- The window (number of IDs) which the documentation promises for an option value: the size
rounded up to a multiple of 64, 256 by default, 0 for the special value 1. -/
def windowOf (size : Int) : Nat :=
  if size = 0 then 256 else if size = 1 then 0 else 64 * ((size.toNat + 63) / 64)

/-- After the history `old` no ID of `rest` jumps more than 64 above the highest ID before it. -/
def NoJump (old rest : List W64) : Prop :=
  ∀ b x c, rest = b ++ x :: c → x.toNat ≤ highest (old ++ b) + 64

/-- The history contains `id`, and no jump since. -/
def SeenSinceJump (id : W64) (ids : List W64) : Prop :=
  ∃ a b, ids = a ++ id :: b ∧ NoJump (a ++ [id]) b

end Verif.Spec
