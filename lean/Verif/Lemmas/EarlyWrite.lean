import Verif.Props.SizeChange
/-! # Lemmas for C150 -/
namespace Verif.SizeChange
open Verif.Send Verif.Headers

/-- Without fragmentation and a size that is too small, or after `Close`, this is not the state of a call before. -/
def Early (cfg : Cfg) : Call → Prop
  | .start _ _ | .whole _ _ _ => True
  | .split _ _ => cfg.fragmentation = true
  | .refused _ p seen => cfg.fragmentation = false ∧ seen.toNat < len32 p
  | _ => False

theorem early_call {cfg : Cfg} {s s' : State} {zero : Bool} {c c' : Call} (he : s.established = false) (hc : s.closing = false)
    (h : Early cfg c) (hs : callStep cfg s zero c = some (s', c')) : Early cfg c' := by
  cases c <;> simp only [callStep, State.read, he, hc, Bool.false_eq_true, if_false, Early] at hs h
  case start t p =>
    split at hs
    · split at hs
      · cases hs; assumption
      · rename_i h1 h2
        cases hs
        exact ⟨by simpa using h2, h1⟩
    · cases hs; trivial
  all_goals cases hs

theorem early_inv {cfg : Cfg} : ∀ {s : State}, Reachable cfg s → s.established = false → s.closing = false →
    ∀ (i : Nat) (c : Call), s.calls[i]? = some c → Early cfg c := by
  intro s ⟨as, hr⟩
  refine run_inv (P := fun s => s.established = false → s.closing = false →
    ∀ (i : Nat) (c : Call), s.calls[i]? = some c → Early cfg c) ?_ as (fun _ _ i c h => by simp [State.init] at h) hr
  intro s s' a h hs he hc i c hi
  cases a with
  | call t p =>
    simp only [step] at hs
    split at hs
    · cases hs
    · cases hs
      simp only [List.getElem?_append, List.getElem?_singleton] at hi
      split at hi
      · exact h he hc i c hi
      · split at hi
        · cases hi; trivial
        · cases hi
  | go j zero =>
    simp only [step] at hs
    split at hs
    · rename_i d hd
      split at hs
      · rename_i s1 c1 hcs
        cases hs
        obtain ⟨h2, h3, h4, h5⟩ := callStep_frame hcs
        have he' : s.established = false := h2.symm.trans he
        have hc' : s.closing = false := h4.symm.trans hc
        simp only [h5] at hi
        by_cases hj : j = i
        · subst hj
          rw [List.getElem?_set_self (by exact (List.getElem?_eq_some_iff.mp hd).1)] at hi
          cases hi
          exact early_call he' hc' (h he' hc' _ _ hd) hcs
        · rw [List.getElem?_set_ne hj] at hi
          exact h he' hc' i c hi
      · cases hs
    · cases hs
  | cancel j =>
    simp only [step] at hs
    split at hs
    · split at hs
      · rename_i hcl
        cases hs
        simp only [Bool.and_eq_true] at hcl
        simp only [hcl.1] at hc
        cases hc
      · cases hs
    · cases hs
  | negotiated e =>
    simp only [step] at hs
    split at hs
    · cases hs
    · cases hs; exact h he hc i c hi
  | establish =>
    simp only [step] at hs
    split at hs
    · cases hs
    · cases hs; cases he
  | flush => cases hs; exact h he hc i c hi
  | close => cases hs; cases hc

theorem set_get {l : List Call} {i : Nat} {c d : Call} (h : l[i]? = some c) : (l.set i d)[i]? = some d :=
  List.getElem?_set_self (List.getElem?_eq_some_iff.mp h).1

theorem finish_whole (cfg : Cfg) (s : State) (he : s.established = true) (hc : s.closing = false) (hw : Workable s.size)
    {i : Nat} {t : W32} {p : Bytes} {seen : W32} (hp : p.length ≤ s.size.toNat) (h : s.calls[i]? = some (.whole t p seen)) :
    ∃ s', run cfg s [.flush, .go i false] = some s' ∧ s'.calls[i]? = some (.accepted t p [wholeJob t p]) := by
  have h1 : step cfg s .flush = some { s with buf := 0 } := rfl
  have h3 := goWhole_accepts cfg { s with buf := 0 } hw t hp seen rfl
  have h4 := (goWhole_frame cfg { s with buf := 0 } s.size t p seen).2.2.2
  rw [run_cons h1]
  refine ⟨_, by simp only [run, step, h, callStep, State.read, hc, he, Bool.false_eq_true, if_false, if_true]; rfl, ?_⟩
  rw [hc, he] at h3 h4
  simp only [h3, h4]
  exact set_get h

theorem finish_pieces (cfg : Cfg) (s : State) (he : s.established = true) (hc : s.closing = false) (hw : Workable s.size)
    {i : Nat} {t : W32} {p : Bytes} {fs : List Fragment} {chain : W64} (hcov : Covers fs chain s.size.toNat p)
    (h : s.calls[i]? = some (.pieces t p fs)) :
    ∃ s', run cfg s [.go i false] = some s' ∧ s'.calls[i]? = some (.accepted t p (fs.map (pieceJob t))) := by
  have h3 : fs.any (fun f => tooBig cfg s.size (pieceJob t f)) = false := by
    rw [List.any_eq_false]
    intro f hm
    rw [piece_tooBig cfg hw t (by have := (hcov.fits f hm).2; omega)]
    simp
  simp only [run, step, h, callStep, State.read, hc, he, Bool.false_eq_true, if_false, if_true, h3]
  exact ⟨_, rfl, set_get h⟩

theorem finish_split (cfg : Cfg) (s : State) (he : s.established = true) (hc : s.closing = false) (hw : Workable s.size)
    {i : Nat} {t : W32} {p : Bytes} (hp : p.length + 53 < 2 ^ 32) (h : s.calls[i]? = some (.split t p)) :
    ∃ s' fs chain, Covers fs chain s.size.toNat p ∧ run cfg s [.go i false, .go i false] = some s' ∧
      s'.calls[i]? = some (.accepted t p (fs.map (pieceJob t))) := by
  obtain ⟨fs, hfs, hcov⟩ := C20_covers (cfg.at s.size) hw.1 s.chain p (by omega)
  have h2 : step cfg s (.go i false) = some { s with calls := s.calls.set i (.pieces t p fs), chain := s.chain + 1 } := by
    simp only [step, h, callStep, State.read, hc, he, Bool.false_eq_true, if_false, if_true, hfs]
  rw [run_cons h2]
  have hg : (s.calls.set i (.pieces t p fs))[i]? = some (.pieces t p fs) := set_get h
  obtain ⟨s', h3, h4⟩ := finish_pieces cfg { s with calls := s.calls.set i (.pieces t p fs), chain := s.chain + 1 } he hc hw hcov hg
  exact ⟨s', fs, _, hcov, h3, h4⟩

end Verif.SizeChange
