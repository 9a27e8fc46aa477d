import Verif.Props.SizeChange
/-!
# C143: `WriteMessageAsync` does not wait

"WriteMessageAsync asynchronously writes a message" (session.go:1428); "Schedule the sending of the payload" (README.md). With a
`SendDelay` the call should return at once; the result is waited for with `SendInfo.Done`.
-/
namespace Verif.SizeChange
open Verif.Send Verif.Headers

/-- Has `WriteMessageAsync` returned? The fragments are sent by goroutines of their own (session.go:1492-1496). -/
def Call.back : Call → Bool
  | .pieces _ _ _ | .accepted _ _ _ | .refused _ _ _ | .cancelled => true
  | _ => false

/-- The message fits beside those that wait in the buffer. -/
def Room (s : State) (p : Bytes) : Prop := s.buf = 0 ∨ s.buf + p.length ≤ s.size.toNat

theorem go_step {cfg : Cfg} {s s' : State} {i : Nat} {c c' : Call} (hi : s.calls[i]? = some c)
    (hs : callStep cfg s false c = some (s', c')) :
    step cfg s (.go i false) = some { s' with calls := s'.calls.set i c' } ∧
      ({ s' with calls := s'.calls.set i c' } : State).calls[i]? = some c' := by
  refine ⟨by simp only [step, hi, hs], ?_⟩
  rw [(callStep_frame hs).2.2.2]
  exact List.getElem?_set_self (List.getElem?_eq_some_iff.mp hi).1

/-- C143 for an established session: the call returns after two steps of its own, without waiting for anybody, if the message fits
into the buffer or is too big for one. -/
theorem C143_partial {cfg : Cfg} {s : State} {i : Nat} {t : W32} {p : Bytes} (hd : cfg.delay = true) (he : s.established = true)
    (hc : s.closing = false) (hw : Workable s.size) (hp : p.length + 53 < 2 ^ 32) (hi : s.calls[i]? = some (.start t p))
    (hroom : Room s p ∨ s.size.toNat < p.length) :
    ∃ s1 s2 c, step cfg s (.go i false) = some s1 ∧ (s2 = s1 ∨ step cfg s1 (.go i false) = some s2) ∧
      s2.calls[i]? = some c ∧ c.back = true := by
  have hl : len32 p = p.length := Nat.mod_eq_of_lt (by omega)
  by_cases hbig : s.size.toNat < p.length
  · cases hf : cfg.fragmentation with
    | false =>
      have h1 : callStep cfg s false (.start t p) = some (s, .refused t p s.size) := by
        simp only [callStep, hl, hf, Bool.false_eq_true, if_false]; exact if_pos hbig
      obtain ⟨g1, g2⟩ := go_step hi h1
      exact ⟨_, _, _, g1, .inl rfl, g2, rfl⟩
    | true =>
      have h1 : callStep cfg s false (.start t p) = some (s, .split t p) := by
        simp only [callStep, hl, hf, if_true]; exact if_pos hbig
      obtain ⟨g1, g2⟩ := go_step hi h1
      obtain ⟨fs, h2, -⟩ := C20_covers (cfg.at s.size) hw.1 s.chain p (by omega)
      have h3 : callStep cfg ({ s with calls := s.calls.set i (.split t p) } : State) false (.split t p) =
          some ({ s with calls := s.calls.set i (.split t p), chain := s.chain + 1 }, .pieces t p fs) := by
        simp only [callStep, State.read, hc, he, Bool.false_eq_true, if_false, if_true, h2]
      obtain ⟨g3, g4⟩ := go_step g2 h3
      exact ⟨_, _, _, g1, .inr g3, g4, rfl⟩
  · have hr : Room s p := by rcases hroom with h | h <;> first | exact h | exact absurd h hbig
    have h1 : callStep cfg s false (.start t p) = some (s, .whole t p s.size) := by
      simp only [callStep, hl]; exact if_neg hbig
    obtain ⟨g1, g2⟩ := go_step hi h1
    have h3 : callStep cfg ({ s with calls := s.calls.set i (.whole t p s.size) } : State) false (.whole t p s.size) =
        some ({ s with calls := s.calls.set i (.whole t p s.size), buf := s.buf + messageHeadersSize + p.length },
          .accepted t p [wholeJob t p]) := by
      have hfit : ¬ containerHeadersSize + s.buf + messageHeadersSize + p.length > packetSize (cfg.at s.size) := by
        rw [packet_at cfg hw]
        simp only [containerHeadersSize, messageHeadersSize]
        rcases hr with h | h <;> omega
      simp only [callStep, State.read, hc, he, Bool.false_eq_true, if_false, if_true, goWhole, hd, if_neg hfit]
    obtain ⟨g3, g4⟩ := go_step g2 h3
    exact ⟨_, _, _, g1, .inr g3, g4, rfl⟩

/-- A call that neither `P` nor a step of its own can move stays where it is. -/
theorem stays {cfg : Cfg} {P : State → Prop} {i : Nat} {c : Call} {ok : Act → Prop}
    (hstep : ∀ {s s' : State} {a : Act}, P s → s.calls[i]? = some c → ok a → step cfg s a = some s' → P s')
    (hown : ∀ {s s' : State} {c' : Call} {zero : Bool}, P s → callStep cfg s zero c = some (s', c') → c' = c)
    (hcancel : ∀ {s : State}, P s → s.closing = false) :
    ∀ (as : List Act) {s s' : State}, P s → s.calls[i]? = some c → (∀ a ∈ as, ok a) → run cfg s as = some s' →
      s'.calls[i]? = some c := by
  intro as
  induction as with
  | nil => intro s s' _ hi _ hr; cases hr; exact hi
  | cons a as ih =>
    intro s s' hP hi hok hr
    simp only [run] at hr
    split at hr
    · rename_i s1 hs
      refine ih (hstep hP hi (hok a (List.mem_cons_self ..)) hs) ?_ (fun b hb => hok b (List.mem_cons_of_mem _ hb)) hr
      cases a with
      | call t p =>
        simp only [step] at hs
        split at hs <;> cases hs
        exact (List.getElem?_append_left (List.getElem?_eq_some_iff.mp hi).1).trans hi
      | go j zero =>
        simp only [step] at hs
        split at hs
        · rename_i d hd
          split at hs <;> cases hs
          rename_i s2 c2 hcs
          simp only [(callStep_frame hcs).2.2.2]
          by_cases hj : j = i
          · subst hj
            rw [hi] at hd; cases hd
            rw [hown hP hcs]
            exact List.getElem?_set_self (List.getElem?_eq_some_iff.mp hi).1
          · rw [List.getElem?_set_ne hj]; exact hi
        · cases hs
      | cancel j =>
        simp only [step, hcancel hP, Bool.false_and, Bool.false_eq_true, if_false] at hs
        split at hs <;> cases hs
      | negotiated e => simp only [step] at hs; split at hs <;> cases hs; exact hi
      | establish => simp only [step] at hs; split at hs <;> cases hs; exact hi
      | flush => cases hs; exact hi
      | close => cases hs; exact hi
    · cases hr

/-- C143 is violated, whatever the delay: before the session is established `WriteMessageAsync` waits for that. Without the other
side it never returns, unless the session is closed. -/
theorem C143_violated {cfg : Cfg} {s s' : State} {as : List Act} {i : Nat} {c : Call} (he : s.established = false)
    (hc : s.closing = false) (hi : s.calls[i]? = some c)
    (hk : (∃ t p seen, c = .whole t p seen) ∨ ∃ t p, c = .split t p)
    (has : ∀ a ∈ as, a ≠ .establish ∧ a ≠ .close) (hr : run cfg s as = some s') : s'.calls[i]? = some c := by
  refine stays (P := fun s => s.established = false ∧ s.closing = false) (ok := fun a => a ≠ .establish ∧ a ≠ .close)
    ?_ ?_ (fun h => h.2) as ⟨he, hc⟩ hi has hr
  · intro s s' a h _ ha hs
    cases a with
    | call t p => simp only [step] at hs; split at hs <;> cases hs; exact h
    | go j zero =>
      simp only [step] at hs
      split at hs
      · split at hs <;> cases hs
        rename_i hcs
        have := callStep_frame hcs
        exact ⟨this.1.trans h.1, this.2.2.1.trans h.2⟩
      · cases hs
    | cancel j => simp only [step] at hs; split at hs <;> (try split at hs) <;> cases hs; exact h
    | negotiated e => simp only [step] at hs; split at hs <;> cases hs; exact h
    | establish => exact absurd rfl ha.1
    | flush => cases hs; exact h
    | close => exact absurd rfl ha.2
  · intro s s' c' zero h hs
    rcases hk with ⟨t, p, seen, rfl⟩ | ⟨t, p, rfl⟩ <;>
      simp [callStep, State.read, h.1, h.2] at hs

/-- C143 is violated in an established session, too: when the message does not fit beside those in the buffer, `WriteMessageAsync`
waits until they are sent. -/
theorem C143_violated_full {cfg : Cfg} {s s' : State} {as : List Act} {i : Nat} {t : W32} {p : Bytes} {seen : W32}
    (hd : cfg.delay = true) (he : s.established = true) (hc : s.closing = false) (hw : Workable s.size)
    (hi : s.calls[i]? = some (.whole t p seen)) (hb : 0 < s.buf) (hfull : s.size.toNat < s.buf + p.length)
    (has : ∀ a ∈ as, a ≠ .flush ∧ a ≠ .close) (hr : run cfg s as = some s') : s'.calls[i]? = some (.whole t p seen) := by
  have hgrow : ∀ {u u' : State} {zero : Bool} {c c' : Call}, callStep cfg u zero c = some (u', c') → u.buf ≤ u'.buf := by
    intro u u' zero c c' hs
    cases c <;> simp only [callStep] at hs
    case start =>
      split at hs
      · split at hs <;> (cases hs; exact Nat.le_refl _)
      · cases hs; exact Nat.le_refl _
    case whole =>
      split at hs
      · simp only [goWhole, Option.some.injEq] at hs
        repeat' split at hs
        all_goals (cases hs; first | exact Nat.le_refl _ | (simp only; omega))
      · cases hs
    case split =>
      split at hs
      · split at hs <;> cases hs; exact Nat.le_refl _
      · cases hs
    case pieces =>
      split at hs
      · split at hs <;> (cases hs; exact Nat.le_refl _)
      · cases hs
    all_goals cases hs
  refine stays (P := fun u => u.established = true ∧ u.closing = false ∧ u.size = s.size ∧ s.buf ≤ u.buf)
    (ok := fun a => a ≠ .flush ∧ a ≠ .close) ?_ ?_ (fun h => h.2.1) as ⟨he, hc, rfl, Nat.le_refl _⟩ hi has hr
  · intro u u' a h _ ha hs
    cases a with
    | call t p => simp only [step] at hs; split at hs <;> cases hs; exact h
    | go j zero =>
      simp only [step] at hs
      split at hs
      · split at hs <;> cases hs
        rename_i hcs
        have h1 := callStep_frame hcs
        have h2 := hgrow hcs
        exact ⟨h1.1.trans h.1, h1.2.2.1.trans h.2.1, h1.2.1.trans h.2.2.1, Nat.le_trans h.2.2.2 h2⟩
      · cases hs
    | cancel j => simp only [step] at hs; split at hs <;> (try split at hs) <;> cases hs; exact h
    | negotiated e => simp only [step, h.1, if_true] at hs; cases hs
    | establish => simp only [step, h.1, if_true] at hs; cases hs
    | flush => exact absurd rfl ha.1
    | close => exact absurd rfl ha.2
  · intro u u' c' zero ⟨h1, h2, h3, h4⟩ hs
    have hbig : containerHeadersSize + u.buf + messageHeadersSize + p.length > packetSize (cfg.at u.size) := by
      rw [h3, packet_at cfg hw]
      simp only [containerHeadersSize, messageHeadersSize]
      omega
    simp only [callStep, State.read, h1, h2, Bool.false_eq_true, if_false, if_true, goWhole, hd, if_pos hbig,
      if_neg (show ¬ u.buf = 0 by omega), Option.some.injEq, Prod.mk.injEq] at hs
    exact hs.2.symm

/-! ### Examples -/

def asyncCfg : Cfg := ⟨100, true, true⟩

/-- A write before the session is established. -/
def asyncEarly : List Act := [.call 2000 [1], .go 0 false]

/-- 60 bytes wait in the buffer, and 60 more do not fit. -/
def asyncFull : List Act :=
  [.establish, .call 2000 (List.replicate 60 1), .go 0 false, .go 0 false, .call 2000 (List.replicate 60 2), .go 1 false]

def asyncState (as : List Act) : State := (run asyncCfg (.init asyncCfg) as).getD (.init asyncCfg)

/-- The hypotheses of `C143_violated` hold in a reachable state. -/
example : run asyncCfg (.init asyncCfg) asyncEarly = some (asyncState asyncEarly) ∧
    (asyncState asyncEarly).established = false ∧ (asyncState asyncEarly).closing = false ∧
    (asyncState asyncEarly).calls[0]? = some (.whole 2000 [1] 100) := by decide +kernel

/-- Those of `C143_violated_full`. -/
example : run asyncCfg (.init asyncCfg) asyncFull = some (asyncState asyncFull) ∧
    (asyncState asyncFull).established = true ∧ (asyncState asyncFull).closing = false ∧ (asyncState asyncFull).size = 100 ∧
    (asyncState asyncFull).buf = 69 ∧ (asyncState asyncFull).calls[1]? = some (.whole 2000 (List.replicate 60 2) 100) := by
  decide +kernel

example : Workable 100 := ⟨by decide, by decide⟩

/-- Those of `C143_partial`: the first of the two writes. -/
example : (asyncState (asyncFull.take 2)).established = true ∧ (asyncState (asyncFull.take 2)).closing = false ∧
    (asyncState (asyncFull.take 2)).calls[0]? = some (.start 2000 (List.replicate 60 1)) ∧
    (asyncState (asyncFull.take 2)).buf = 0 := by decide +kernel

/-- It has returned two steps later, before anything is sent. -/
example : ((asyncState (asyncFull.take 4)).calls[0]?.map Call.back) = some true ∧ (asyncState (asyncFull.take 4)).buf = 69 := by
  decide +kernel

#print axioms C143_partial
#print axioms C143_violated
#print axioms C143_violated_full

end Verif.SizeChange
