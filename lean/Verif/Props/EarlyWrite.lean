import Verif.Lemmas.EarlyWrite
/-!
# C150: messages written before the session is Established are sent as soon as it is

README.md, "Established": "And messages attempted to be sent before reaching this stage will be sent as soon as *Session
will reach this stage."
-/
namespace Verif.SizeChange
open Verif.Send Verif.Headers

/-- The message of a call that has not returned. -/
def Call.message : Call → Option (W32 × Bytes)
  | .start t p | .whole t p _ | .split t p | .pieces t p _ => some (t, p)
  | _ => none

/-- C150: before the session is Established nothing of a message is sent. -/
theorem C150_wait {cfg : Cfg} {s : State} (hr : Reachable cfg s) (he : s.established = false) (hc : s.closing = false)
    {i : Nat} {t : W32} {p : Bytes} {jobs : List Job} : s.calls[i]? ≠ some (.accepted t p jobs) := by
  intro h
  exact early_inv hr he hc i _ h

/-- C150: with fragmentation no call fails before. -/
theorem C150_waiting {cfg : Cfg} (hf : cfg.fragmentation = true) {s : State} (hr : Reachable cfg s) (he : s.established = false)
    (hc : s.closing = false) {i : Nat} {c : Call} (h : s.calls[i]? = some c) : c.over = false := by
  have := early_inv hr he hc i c h
  cases c <;> simp [Early, hf, Call.over] at this ⊢

/-- The acts of the call itself, and the sender loop. -/
def Own (i : Nat) (as : List Act) : Prop := ∀ a ∈ as, a = .go i false ∨ a = .flush

/-- C150 (restriction that holds): when the session is Established, each call that has not returned can go on and its
message is sent, in a few steps of the call and of the sender loop, if the message fits the size that was
established, or the session has fragmentation and the call had not decided to send it in one piece.
Missing for the full C150: messages that are bigger than the established size, see `C150_violated`. -/
theorem C150_partial {cfg : Cfg} {s : State} (hr : Reachable cfg s) (he : s.established = true) (hc : s.closing = false)
    (hw : Workable s.size) {i : Nat} {c : Call} {t : W32} {p : Bytes} (h : s.calls[i]? = some c) (hm : c.message = some (t, p))
    (hp : p.length + 53 < 2 ^ 32) (hf : cfg.fragmentation = true)
    (hfit : ∀ seen, c = .whole t p seen → p.length ≤ s.size.toNat) :
    ∃ as s' jobs, as.length ≤ 3 ∧ Own i as ∧ run cfg s as = some s' ∧ s'.calls[i]? = some (.accepted t p jobs) ∧
      Carried s.size t p jobs := by
  have hl : len32 p = p.length := Nat.mod_eq_of_lt (by omega)
  cases c with
  | start t' p' =>
    cases hm
    by_cases hb : p.length ≤ s.size.toNat
    · have h1 : step cfg s (.go i false) = some { s with calls := s.calls.set i (.whole t p s.size) } := by
        simp only [step, h, callStep, hl]; rw [if_neg (by omega)]
      have hg : (s.calls.set i (.whole t p s.size))[i]? = some (.whole t p s.size) := set_get h
      obtain ⟨s', h2, h3⟩ := finish_whole cfg { s with calls := s.calls.set i (.whole t p s.size) } he hc hw hb hg
      exact ⟨_, s', _, by simp, by simp [Own], (run_cons h1).trans h2, h3, .inl ⟨hb, rfl⟩⟩
    · have h1 : step cfg s (.go i false) = some { s with calls := s.calls.set i (.split t p) } := by
        simp only [step, h, callStep, hl, hf]; rw [if_pos (by omega)]; rfl
      have hg : (s.calls.set i (.split t p))[i]? = some (.split t p) := set_get h
      obtain ⟨s', fs, chain, hcov, h2, h3⟩ := finish_split cfg { s with calls := s.calls.set i (.split t p) } he hc hw hp hg
      exact ⟨_, s', _, by simp, by simp [Own], (run_cons h1).trans h2, h3, .inr ⟨chain, fs, hcov, rfl⟩⟩
  | whole t' p' seen =>
    cases hm
    have hb := hfit seen rfl
    obtain ⟨s', h2, h3⟩ := finish_whole cfg s he hc hw hb h
    exact ⟨_, s', _, by simp, by simp [Own], h2, h3, .inl ⟨hb, rfl⟩⟩
  | split t' p' =>
    cases hm
    obtain ⟨s', fs, chain, hcov, h2, h3⟩ := finish_split cfg s he hc hw hp h
    exact ⟨_, s', _, by simp, by simp [Own], h2, h3, .inr ⟨chain, fs, hcov, rfl⟩⟩
  | pieces t' p' fs =>
    cases hm
    obtain ⟨chain, hcov⟩ := (inv hf hr hc i _ h).2 hw hp
    obtain ⟨s', h2, h3⟩ := finish_pieces cfg s he hc hw hcov h
    exact ⟨_, s', _, by simp, by simp [Own], h2, h3, .inr ⟨chain, fs, hcov, rfl⟩⟩
  | accepted | refused | cancelled => cases hm

/-- C150, without fragmentation: messages that fit are sent. -/
theorem C150_small_partial {cfg : Cfg} {s : State} (he : s.established = true) (hc : s.closing = false) (hw : Workable s.size)
    {i : Nat} {t : W32} {p : Bytes} {seen : W32} (h : s.calls[i]? = some (.start t p) ∨ s.calls[i]? = some (.whole t p seen))
    (hb : p.length ≤ s.size.toNat) :
    ∃ as s', as.length ≤ 3 ∧ Own i as ∧ run cfg s as = some s' ∧ s'.calls[i]? = some (.accepted t p [wholeJob t p]) := by
  have := hw.2
  have hl : len32 p = p.length := Nat.mod_eq_of_lt (by omega)
  rcases h with h | h
  · have h1 : step cfg s (.go i false) = some { s with calls := s.calls.set i (.whole t p s.size) } := by
      simp only [step, h, callStep, hl]; rw [if_neg (by omega)]
    have hg : (s.calls.set i (.whole t p s.size))[i]? = some (.whole t p s.size) := set_get h
    obtain ⟨s', h2, h3⟩ := finish_whole cfg { s with calls := s.calls.set i (.whole t p s.size) } he hc hw hb hg
    exact ⟨_, s', by simp, by simp [Own], (run_cons h1).trans h2, h3⟩
  · obtain ⟨s', h2, h3⟩ := finish_whole cfg s he hc hw hb h
    exact ⟨_, s', by simp, by simp [Own], h2, h3⟩

/-- Negation of C150: a message that fits `PayloadSizeLimit`, written before the session is Established, waits; when the
negotiation has found a smaller size it is not sent, also with fragmentation. -/
theorem C150_violated (cfg : Cfg) {e : W32} (he : e.toNat + 53 < 2 ^ 32) {t : W32} (ht : isInternal t = false) {p : Bytes}
    (hp : p.length + 53 < 2 ^ 32) (h1 : p.length ≤ cfg.limit.toNat) (h2 : e.toNat < p.length) :
    ∃ s s' : State, Reachable cfg s ∧ s.established = false ∧ s.closing = false ∧ s.calls = [.whole t p cfg.limit] ∧
      run cfg s [.negotiated e, .establish, .go 0 false] = some s' ∧ s'.closing = false ∧ s'.calls = [.refused t p cfg.limit] := by
  have hl : len32 p = p.length := Nat.mod_eq_of_lt (by omega)
  refine ⟨{ State.init cfg with calls := [.whole t p cfg.limit] },
    { State.init cfg with size := e, established := true, calls := [.refused t p cfg.limit] },
    ⟨[.call t p, .go 0 false], ?_⟩, rfl, rfl, rfl, ?_, rfl, rfl⟩
  · have a1 : step cfg (.init cfg) (.call t p) = some { State.init cfg with calls := [.start t p] } := by
      simp [step, ht, State.init]
    have a2 : step cfg { State.init cfg with calls := [.start t p] } (.go 0 false) =
        some { State.init cfg with calls := [.whole t p cfg.limit] } := by
      simp only [step, List.getElem?_cons_zero, callStep, hl, State.init]
      rw [if_neg (by omega)]
      rfl
    rw [run_cons a1, run_cons a2]; rfl
  · have a3 : step cfg { State.init cfg with calls := [.whole t p cfg.limit] } (.negotiated e) =
        some { State.init cfg with size := e, calls := [.whole t p cfg.limit] } := rfl
    have a4 : step cfg { State.init cfg with size := e, calls := [.whole t p cfg.limit] } .establish =
        some { State.init cfg with size := e, established := true, calls := [.whole t p cfg.limit] } := rfl
    rw [run_cons a3, run_cons a4]
    have h3 := goWhole_refuses cfg { State.init cfg with size := e, established := true, calls := [.whole t p cfg.limit] } he t hp h2 cfg.limit rfl
    simp only [State.init] at h3 ⊢
    simp only [run, step, List.getElem?_cons_zero, callStep, State.read, Bool.false_eq_true, if_false, if_true, h3, List.set_cons_zero]

/-- Three messages written before: of 30 bytes (sent), of 60 (refused) and of 200 (sent in pieces); the limit is 100 and the
negotiation finds 40. -/
def threeEarly : Option State :=
  run ⟨100, true, true⟩ (.init ⟨100, true, true⟩)
    [.call 7 (List.replicate 30 1), .call 7 (List.replicate 60 2), .call 7 (List.replicate 200 3), .go 0 false, .go 1 false, .go 2 false,
     .negotiated 40, .establish]

example : (threeEarly.map fun s => (s.established, s.closing, s.size, s.calls)) = some (true, false, 40,
    [.whole 7 (List.replicate 30 1) 100, .whole 7 (List.replicate 60 2) 100, .split 7 (List.replicate 200 3)]) := by decide +kernel

example : Workable 40 := by constructor <;> decide

#print axioms C150_wait
#print axioms C150_waiting
#print axioms C150_partial
#print axioms C150_small_partial
#print axioms C150_violated

end Verif.SizeChange
