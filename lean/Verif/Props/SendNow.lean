import Verif.Model.SendNow
import Verif.Lemmas.SeqWrite
import Verif.Props.DelayedSend
/-!
# C121: `SendNowAndWait` returns

"Forces to send the data ASAP and wait until it will be done" (send_info.go:130-131); "or until the context is
cancelled" (send_info.go:140-141).
-/
namespace Verif.SendNow

/-- Later states. -/
inductive Later (cfg : Cfg) : State → State → Prop
  | refl (s) : Later cfg s s
  | step {s s' s''} (a : Act) : Later cfg s s' → SendNow.step cfg s' a = .ok s'' → Later cfg s s''

theorem mem_set_cases {l : List Call} {i : Nat} {c d : Call} (h : c ∈ l.set i d) : c ∈ l ∨ c = d := by
  rcases List.mem_or_eq_of_mem_set h with h | h
  · exact .inl h
  · exact .inr h

/-- Without the loop no call gets beyond the channel operation. -/
def Stuck (s : State) : Prop := s.loop = .absent → ∀ c ∈ s.calls, ∃ x, c = .sending x

theorem stuck_step {cfg : Cfg} {s s' : State} {a : Act} (h : Stuck s) (hs : SendNow.step cfg s a = .ok s') : Stuck s' := by
  intro hl
  cases a <;> simp only [SendNow.step] at hs
  case written => cases hs; exact h hl
  case scheduled => cases hs; exact h hl
  case sent x => split at hs <;> cases hs; exact h hl
  case connect => split at hs <;> cases hs; cases hl
  case cancel => cases hs; exact h hl
  case call x =>
    split at hs <;> cases hs
    intro c hc
    rcases List.mem_append.1 hc with hc | hc
    · exact h hl c hc
    · simp only [List.mem_singleton] at hc; exact ⟨x, hc⟩
  case handoff i =>
    split at hs
    · split at hs
      · cases hs
      · split at hs <;> cases hs
        cases hl
    · cases hs
  case served => split at hs <;> (try split at hs) <;> cases hs; cases hl
  case exit => split at hs <;> cases hs; cases hl
  case ret i =>
    split at hs
    · rename_i x hi
      split at hs <;> cases hs
      obtain ⟨y, hy⟩ := h hl _ (List.mem_of_getElem? hi)
      cases hy
    · cases hs

theorem stuck {cfg : Cfg} {s : State} (hr : Reachable cfg s) : Stuck s := by
  induction hr with
  | init => intro _ c hc; cases hc
  | step a _ hs ih => exact stuck_step ih hs

theorem absent_step {cfg : Cfg} (hd : cfg.delay = false) {s s' : State} {a : Act} (h : s.loop = .absent)
    (hs : SendNow.step cfg s a = .ok s') : s'.loop = .absent := by
  cases a <;> simp only [SendNow.step, h, hd] at hs
  all_goals (repeat' split at hs)
  all_goals first | (cases hs; done) | (cases hs; first | rfl | exact h) | (simp at *; done) | (simp_all; done) | skip

theorem absent {cfg : Cfg} (hd : cfg.delay = false) {s : State} (hr : Reachable cfg s) : s.loop = .absent := by
  induction hr with
  | init => rfl
  | step a _ hs ih => exact absent_step hd ih hs

/-- **C121 is violated if the delay is switched off**: then no call of `SendNowAndWait` ever returns, in no state of any
session, whatever happens. -/
theorem C121_violated {cfg : Cfg} (hd : cfg.delay = false) {s : State} (hr : Reachable cfg s) :
    ∀ c ∈ s.calls, ∃ x, c = .sending x :=
  stuck hr (absent hd hr)

/-- There are such calls: for a message which has already been sent, and in a session whose context has ended. -/
theorem C121_violated_example : ∃ s, Reachable ⟨false⟩ s ∧ s.calls = [.sending 0] ∧ s.done = [true] ∧ s.ctx = true :=
  ⟨_, run_reachable (as := [.written, .call 0, .cancel]) .init rfl, rfl, rfl, rfl⟩

/-- Calls are for messages there are. -/
example : SendNow.step ⟨true⟩ {} (.call 0) = .block ∧ SendNow.step ⟨true⟩ { done := [false] } (.call 0) = .ok { done := [false], calls := [.sending 0] } :=
  ⟨rfl, rfl⟩

/-- The same with the delay, if the session ends before it is established: `WriteMessageAsync` returns a `SendInfo` with
an error, and `SendNowAndWait` for it does not return before somebody calls `onConnect`. -/
theorem C121_violated_unconnected : ∃ s, Reachable ⟨true⟩ s ∧ s.ctx = true ∧ s.done = [true] ∧ s.calls = [.sending 0] ∧
    ∀ s', Later ⟨true⟩ s s' → s'.loop = .absent → ∀ c ∈ s'.calls, ∃ x, c = .sending x := by
  have hr : Reachable ⟨true⟩ { ctx := true, done := [true], calls := [.sending 0] } :=
    run_reachable (as := [.cancel, .written, .call 0]) .init rfl
  refine ⟨_, hr, rfl, rfl, rfl, fun s' hl => ?_⟩
  refine stuck (cfg := ⟨true⟩) ?_
  induction hl with
  | refl => exact hr
  | step a _ hs ih => exact .step a ih hs

/-- Once the loop has taken the `SendInfo`, the call returns as soon as the message is sent or the context has ended. -/
theorem C121_wait {cfg : Cfg} {s : State} {i x : Nat} (hc : s.calls[i]? = some (.waiting x))
    (h : s.done[x]? = some true ∨ s.ctx = true) : ∃ s', SendNow.step cfg s (.ret i) = .ok s' ∧ s'.calls[i]? = some (.returned x) := by
  have hi : i < s.calls.length := by
    rcases Nat.lt_or_ge i s.calls.length with h1 | h1
    · exact h1
    · rw [List.getElem?_eq_none h1] at hc; cases hc
  refine ⟨{ s with calls := s.calls.set i (.returned x) }, ?_, by simp [hi]⟩
  simp only [SendNow.step, hc, h, if_true]

/-- The loop ends only together with the context; until then a call is only refused by a panic if it comes after the loop. -/
theorem C121_exit {cfg : Cfg} {s : State} (hr : Reachable cfg s) (h : s.loop = .exited) : s.ctx = true := by
  induction hr with
  | init => cases h
  | step a _ hs ih =>
    cases a <;> simp only [SendNow.step] at hs
    case written => cases hs; exact ih h
    case scheduled => cases hs; exact ih h
    case sent x => split at hs <;> cases hs; exact ih h
    case connect => split at hs <;> cases hs; cases h
    case cancel => cases hs; rfl
    case call x => split at hs <;> cases hs; exact ih h
    case handoff i =>
      split at hs
      · split at hs
        · cases hs
        · split at hs <;> cases hs; cases h
      · cases hs
    case served => split at hs <;> (try split at hs) <;> cases hs; cases h
    case exit =>
      split at hs
      · next hc => cases hs; exact hc.2
      · cases hs
    case ret i =>
      split at hs
      · split at hs <;> cases hs; exact ih h
      · cases hs

example : ∃ s, Reachable ⟨true⟩ s ∧ s.loop = .exited :=
  ⟨_, run_reachable (as := [.connect, .cancel, .exit]) .init rfl, rfl⟩

theorem done_mono {cfg : Cfg} {s s' : State} {a : Act} (hs : SendNow.step cfg s a = .ok s') :
    (∀ x : Nat, s.done[x]? = some true → s'.done[x]? = some true) ∧ (s.ctx = true → s'.ctx = true) := by
  have app : ∀ (b : Bool) (x : Nat), s.done[x]? = some true → (s.done ++ [b])[x]? = some true := by
    intro b x hx
    have : x < s.done.length := by
      rcases Nat.lt_or_ge x s.done.length with h1 | h1
      · exact h1
      · rw [List.getElem?_eq_none h1] at hx; cases hx
    rw [List.getElem?_append_left this]; exact hx
  cases a <;> simp only [SendNow.step] at hs
  case written => cases hs; exact ⟨app true, id⟩
  case scheduled => cases hs; exact ⟨app false, id⟩
  case sent y =>
    split at hs <;> cases hs
    refine ⟨fun x hx => ?_, id⟩
    show (s.done.set y true)[x]? = some true
    rw [List.getElem?_set]
    split
    · rename_i hd e
      subst e
      rw [hd] at hx; cases hx
    · exact hx
  case cancel => cases hs; exact ⟨fun _ h => h, fun _ => rfl⟩
  all_goals (repeat' split at hs)
  all_goals first | (cases hs; done) | (cases hs; exact ⟨fun _ h => h, fun h => h⟩)

/-- A call does not return before its message is sent, unless the context has ended. -/
theorem C121_not_before {cfg : Cfg} {s : State} (hr : Reachable cfg s) {x : Nat} (hc : .returned x ∈ s.calls) :
    s.done[x]? = some true ∨ s.ctx = true := by
  induction hr with
  | init => cases hc
  | @step s s' a _ hs ih =>
    have hm := done_mono hs
    have old : .returned x ∈ s.calls → s'.done[x]? = some true ∨ s'.ctx = true := by
      intro h
      rcases ih h with h | h
      · exact .inl (hm.1 x h)
      · exact .inr (hm.2 h)
    cases a <;> simp only [SendNow.step] at hs
    case call y =>
      split at hs <;> cases hs
      rcases List.mem_append.1 hc with h | h
      · exact old h
      · simp at h
    case handoff i =>
      (repeat' split at hs) <;> cases hs
      rcases mem_set_cases hc with h | h
      · exact old h
      · cases h
    case ret i =>
      split at hs
      · rename_i y hi
        split at hs <;> cases hs
        rename_i hdone
        rcases mem_set_cases hc with h | h
        · exact old h
        · cases h; exact hdone
      · cases hs
    all_goals (repeat' split at hs)
    all_goals first | (cases hs; done) | (cases hs; exact old hc)

/-- A run in which a call returns. -/
example : ∃ s, Reachable ⟨true⟩ s ∧ s.calls = [.returned 0] ∧ s.ctx = false :=
  ⟨_, run_reachable (as := [.connect, .scheduled, .call 0, .handoff 0, .sent 0, .served, .ret 0]) .init rfl, rfl, rfl⟩

end Verif.SendNow

namespace Verif.DelayedSend

/-- What the sender loop does between receiving a `SendInfo` and the next `select`. -/
inductive Act.Own : Act → Prop
  | handle (r) : Own (.handle r)
  | flush (a r) : Own (.mainFlush a r)
  | release : Own .mainRelease

/-- Steps left. -/
def Main.left : Main → Nat
  | .got _ => 7
  | .flush _ (.acquired _) => 6
  | .flush _ (.swapped _ _) => 5
  | .flush _ (.checked _ _) => 4
  | .flush _ (.wrote _ _ _) => 3
  | .flush _ (.ended _ _) => 2
  | .leaving _ => 1
  | _ => 0

/-- The loop is serving `x`. -/
def Stage (s : State) (x : Nat) : Main → Prop
  | .got y => y = x
  | .flush d (.acquired n) => d = some x ∧ x ≠ n
  | .flush d _ => d = some x ∧ x ≠ s.cur
  | .leaving y => y = x ∧ (s.infos x).closed = true
  | .idle => (s.infos x).closed = true
  | _ => False

structure Serving (cfg : Cfg) (s : State) (x : Nat) : Prop where
  reach : Reachable cfg s
  closer : s.closer = .none
  busy : s.main = .idle ∨ (s.infos x).busy = true
  stage : Stage s x s.main

theorem serving_open {cfg : Cfg} {s : State} {x : Nat} (hf : cfg.frag = false) (hr : Reachable cfg s) (hc : s.closer = .none)
    (hm : s.main.flush? = []) (hx : x ≠ s.cur) : (s.infos x).closed = true := by
  cases h : (s.infos x).closed with
  | true => rfl
  | false =>
    have := ((inv_reachable hr).2 hf).2 x h
    rw [hm, hc] at this
    simp [Closer.flush?] at this
    exact absurd this hx

theorem stage_given {s : State} {x : Nat} {m : Main} (h : Stage s x m) (hm : m ≠ .idle) : x ∈ m.given := by
  cases m with
  | idle => exact absurd rfl hm
  | before => cases h
  | connecting f => cases h
  | exited => cases h
  | got y => replace h : y = x := h; subst h; simp [Main.given]
  | leaving y => simp [Main.given]; exact h.1.symm
  | flush d f =>
    have : d = some x := by cases f <;> exact h.1
    subst this; simp [Main.given]

theorem serving_busy {cfg : Cfg} {s s' : State} {x : Nat} (h : Serving cfg s x) (hni : s.main ≠ .idle) (hr' : RInv s')
    (hk : Keep1 (s.infos x) (s'.infos x)) (hg : s'.main = .idle ∨ x ∈ s'.main.given) : s'.main = .idle ∨ (s'.infos x).busy = true := by
  rcases hg with hg | hg
  · exact .inl hg
  · rcases h.busy with hb | hb
    · exact absurd hb hni
    · rcases hk.busy hb with h1 | h1
      · exact .inr h1
      · have := held_pos hr' (given_mem hg); omega

/-- Every step of the loop brings it nearer to the end. -/
theorem serving_step {cfg : Cfg} {s s' : State} {x : Nat} (hf : cfg.frag = false) (h : Serving cfg s x) {a : Act} (ha : a.Own)
    (hs : step cfg s a = .ok s') : Serving cfg s' x ∧ s'.main.left < s.main.left := by
  have hr' := Reachable.step a h.reach hs
  have hR' := (inv_reachable hr').1
  have hI := ids_reachable h.reach
  have hst := h.stage
  cases ha with
  | handle r =>
    simp only [step] at hs
    split at hs
    · rename_i y hm
      have hni : s.main ≠ .idle := by rw [hm]; simp
      rw [hm] at hst
      replace hst : y = x := hst
      subst hst
      split at hs
      · rename_i hle
        cases hs
        have hne : y ≠ s.cur := by
          intro e
          have := hI.last h.closer
          rw [← e] at this
          omega
        refine ⟨⟨hr', h.closer, serving_busy h hni hR' (Keep.refl _).weak (.inr (by simp [Main.given])), ⟨rfl, ?_⟩⟩, by rw [hm]; simp [Main.left]⟩
        exact serving_open hf hr' h.closer rfl hne
      · unfold begin at hs
        split at hs <;> cases hs
        rename_i s1 n h1
        obtain ⟨hA, -⟩ := acquire_ok (inv_reachable h.reach).1.ref h1
        have e := hA.eq
        refine ⟨⟨hr', by show s1.closer = _; rw [e]; exact h.closer, serving_busy h hni hR' (keep_acquired hA y).weak (.inr (by simp [Main.given])), rfl, ?_⟩,
          by rw [hm]; simp [Main.left]⟩
        intro e
        subst e
        have h3 := hA.free
        rcases h.busy with hb | hb
        · exact hni hb
        · rw [hb] at h3; cases h3
    · cases hs
  | flush a r =>
    simp only [step] at hs
    split at hs
    · rename_i f hm
      rw [hm] at hst; cases hst
    · rename_i d f hm
      have hni : s.main ≠ .idle := by rw [hm]; simp
      rw [hm] at hst
      split at hs <;> try (cases hs; done)
      · rename_i s1 f1 hfl
        cases hs
        obtain ⟨-, -, h3, -, -, h6⟩ := flushStep_same hfl
        have hlt : (Main.flush d f1).left < s.main.left := by
          rw [hm]
          cases f <;> cases a <;> simp only [flushStep] at hfl <;> (repeat' split at hfl) <;> cases hfl <;> simp [Main.left]
        have hstage : Stage { s1 with main := .flush d f1 } x (.flush d f1) := by
          rcases h6 with ⟨n, rfl, h6, msgs, h7⟩ | ⟨h6, hna, ⟨g, h7, h9, -⟩ | ⟨y, msgs, e, -, h7⟩⟩
          · cases h7
            exact ⟨hst.1, by show x ≠ s1.cur; rw [h6]; exact hst.2⟩
          · cases h7
            have h10 : d = some x ∧ x ≠ s.cur := by
              cases f with
              | acquired n => exact absurd rfl (hna n)
              | _ => exact hst
            rw [← h6] at h10
            cases f1 with
            | acquired n => exact absurd rfl (h9 n)
            | _ => exact h10
          · cases h7
        exact ⟨⟨hr', by show s1.closer = _; rw [h3]; exact h.closer,
          serving_busy h hni hR' (keep_flush hfl x).weak (.inr (stage_given hstage (by simp))), hstage⟩, hlt⟩
      · rename_i s1 e id hfl
        cases hs
        obtain ⟨-, -, h3, -, -, h6⟩ := flushStep_same hfl
        rcases h6 with ⟨n, rfl, h6, msgs, h7⟩ | ⟨h6, hna, ⟨g, h7, h9, -⟩ | ⟨y, msgs, e, rfl, h7⟩⟩
        · cases h7
        · cases h7
        · obtain ⟨rfl, hx⟩ := hst
          have hc' : s1.closer = .none := by rw [h3]; exact h.closer
          refine ⟨⟨hr', hc', serving_busy h hni hR' (keep_flush hfl x).weak (.inr (by simp [Main.after, Main.given])), ?_⟩, by rw [hm]; simp [Main.left, Main.after]⟩
          exact ⟨rfl, serving_open hf hr' hc' rfl (by show x ≠ s1.cur; rw [h6]; exact hx)⟩
    · cases hs
  | release =>
    simp only [step] at hs
    split at hs
    · rename_i y hm
      have hni : s.main ≠ .idle := by rw [hm]; simp
      rw [hm] at hst
      obtain ⟨rfl, hcl⟩ := hst
      have h2 := (release_frame hs).2
      have hk := keep_release hs y
      have hb : (s.infos y).busy = true := by
        rcases h.busy with hb | hb
        · exact absurd hb hni
        · exact hb
      refine ⟨⟨hr', by rw [h2]; exact h.closer, .inl (by rw [h2]), ?_⟩, ?_⟩
      · rw [h2]
        show (s'.infos y).closed = true
        exact hk.closed hb hcl
      · rw [h2, hm]; simp [Main.left]
    · cases hs

/-- Steps of other goroutines do not disturb the loop. -/
theorem other_step {cfg : Cfg} {s s' : State} (hR : Reachable cfg s) {a : Act} (ha : ¬ a.Own) (hs : step cfg s a = .ok s')
    (hf : cfg.frag = false) (hn : s.main ≠ .idle) (hb : s.main ≠ .before) (hc : s.closer = .none) (hc' : s'.closer = .none) :
    s'.main = s.main ∧ s'.cur = s.cur ∧ ∀ x, Keep1 (s.infos x) (s'.infos x) := by
  have hr := (inv_reachable hR).1
  have hid : ∀ x, Keep1 (s.infos x) (s.infos x) := fun x => (Keep.refl _).weak
  have hap : ∀ {t t' : State} {m r}, RInv t → tryAppend cfg t m r = .ok t' → t'.main = t.main ∧ t'.cur = t.cur ∧ ∀ x, Keep1 (t.infos x) (t'.infos x) := by
    intro t t' m r ht hh
    unfold tryAppend at hh
    split at hh
    · cases hh
    · split at hh
      · split at hh
        · split at hh <;> cases hh
          rename_i s1 n h1
          have hk := keep_acquireError ht.ref h1
          obtain ⟨s0, -, hA, he, -⟩ := acquireError_ok ht.ref h1
          have e := hA.eq
          exact ⟨by show s1.main = _; rw [he, e], by show s1.cur = _; rw [he, e], fun x => (hk x).weak⟩
        · cases hh; exact ⟨rfl, rfl, fun x => (Keep.refl _).weak⟩
      · dsimp only at hh
        split at hh
        · cases hh
        · cases hh; exact ⟨rfl, rfl, keep1_inc t _⟩
  have hgu : ∀ {t t' : State} {i m r} {H F : List Nat}, RefOK t.infos t.next t.pool H F → giveUp t i m r = .ok t' →
      t'.main = t.main ∧ t'.cur = t.cur ∧ ∀ x, Keep (t.infos x) (t'.infos x) := by
    intro t t' i m r H F ht hh
    have hk := keep_giveUp ht hh
    unfold giveUp at hh
    split at hh <;> cases hh
    rename_i s1 n h1
    obtain ⟨s0, -, hA, he, -⟩ := acquireError_ok ht h1
    have e := hA.eq
    exact ⟨by show s1.main = _; rw [he, e], by show s1.cur = _; rw [he, e], hk⟩
  cases a with
  | write m r => exact hap hr hs
  | retry i r =>
    simp only [step] at hs
    split at hs
    · exact hap (t := { s with writers := s.writers.eraseIdx i }) (rinv_retryState hr i) hs
    · cases hs
  | refused r =>
    simp only [step] at hs
    split at hs
    · split at hs <;> cases hs
      rename_i s1 n h1
      have hk := keep_acquireError hr.ref h1
      obtain ⟨s0, -, hA, he, -⟩ := acquireError_ok hr.ref h1
      have e := hA.eq
      exact ⟨by show s1.main = _; rw [he, e], by show s1.cur = _; rw [he, e], fun x => (hk x).weak⟩
    · cases hs
  | inc i r =>
    simp only [step] at hs
    split at hs
    · rename_i x m hi
      have hx : x < s.next := writers_knows hr hi x (by simp [Writer.knows])
      split at hs
      · obtain ⟨h1, h2, hk⟩ := hgu (t := incRef s x) (hr.ref.leak hx) hs
        refine ⟨h1, h2, fun y => ?_⟩
        refine ⟨fun hb => (hk y).zero (.inl ?_), fun hb hc => (hk y).closed ?_ ?_⟩ <;>
          (by_cases e : y = x <;> simp only [incRef] <;> first | (subst e; simp_all) | (rw [setInfo_other e]; assumption))
      · cases hs; exact ⟨rfl, rfl, keep1_inc s x⟩
    · rename_i x m hi
      split at hs <;> cases hs <;> exact ⟨rfl, rfl, keep1_inc s x⟩
    · cases hs
  | poke i handoff r =>
    simp only [step] at hs
    split at hs
    · split at hs
      · split at hs
        · obtain ⟨h1, h2, hk⟩ := hgu hr.ref hs
          exact ⟨h1, h2, fun y => (hk y).weak⟩
        · cases hs; exact ⟨rfl, rfl, hid⟩
      · split at hs
        · cases hs
        · split at hs
          · obtain ⟨h1, h2, hk⟩ := hgu hr.ref hs
            exact ⟨h1, h2, fun y => (hk y).weak⟩
          · cases hs; exact ⟨rfl, rfl, hid⟩
    · cases hs
  | wake i => simp only [step] at hs; (repeat' split at hs) <;> cases hs; exact ⟨rfl, rfl, hid⟩
  | tick i => simp only [step] at hs; (repeat' split at hs) <;> cases hs; exact ⟨rfl, rfl, hid⟩
  | sendNow i => simp only [step] at hs; (repeat' split at hs) <;> cases hs; exact ⟨rfl, rfl, keep1_inc s _⟩
  | sendNowChan i =>
    simp only [step] at hs; (repeat' split at hs) <;> cases hs
  | userRelease i =>
    simp only [step] at hs
    split at hs
    · split at hs
      · cases hs
      split at hs
      · have hk := keep_release hs
        have h2 := (release_frame hs).2
        exact ⟨by rw [h2], by rw [h2], fun x => (hk x).weak⟩
      · cases hs
    · cases hs
  | connect r => simp only [step, hb, if_false] at hs; cases hs
  | timer r => simp only [step, hn, if_false] at hs; cases hs
  | handle r => exact absurd (.handle r) ha
  | mainFlush a r => exact absurd (.flush a r) ha
  | mainRelease => exact absurd .release ha
  | mainExit => simp only [step] at hs; split at hs <;> cases hs; rename_i h1; exact absurd h1.1 hn
  | close r =>
    simp only [step] at hs
    split at hs
    · cases hs
    · unfold begin at hs
      split at hs <;> cases hs
      cases hc'
  | closerFlush a r => simp only [step, hc] at hs; cases hs
  | cancel => cases hs; exact ⟨rfl, rfl, hid⟩
  | setDone => cases hs; exact ⟨rfl, rfl, hid⟩
  | fragment r => simp [step, hf] at hs
  | fragmentDone i er => simp [step, ((inv_reachable hR).2 hf).1.frags] at hs
  | gc x => simp only [step] at hs; split at hs <;> cases hs; exact ⟨rfl, rfl, hid⟩

theorem serving_other {cfg : Cfg} {s s' : State} {x : Nat} (hf : cfg.frag = false) (h : Serving cfg s x) {a : Act} (ha : ¬ a.Own)
    (hn : s.main ≠ .idle) (hs : step cfg s a = .ok s') (hc' : s'.closer = .none) : Serving cfg s' x ∧ s'.main = s.main := by
  have hr' := Reachable.step a h.reach hs
  have hb : s.main ≠ .before := by
    intro e
    have := h.stage
    rw [e] at this; cases this
  obtain ⟨h1, h2, h3⟩ := other_step h.reach ha hs hf hn hb h.closer hc'
  have hbusy := serving_busy h hn (inv_reachable hr').1 (h3 x) (.inr (by rw [h1]; exact stage_given h.stage hn))
  refine ⟨⟨hr', hc', hbusy, ?_⟩, h1⟩
  have hst := h.stage
  rw [h1]
  cases hm : s.main with
  | idle => exact absurd hm hn
  | leaving y =>
    rw [hm] at hst
    obtain ⟨rfl, hcl⟩ := hst
    rcases h.busy with hb | hb
    · exact absurd hb hn
    · exact ⟨rfl, (h3 y).closed hb hcl⟩
  | flush d f =>
    rw [hm] at hst
    cases f <;> simp only [Stage, h2] at hst ⊢ <;> exact hst
  | _ => rw [hm] at hst; exact hst

/-- The loop does not crash and does not get stuck. -/
theorem serving_live {cfg : Cfg} {s : State} {x : Nat} (hf : cfg.frag = false) (h : Serving cfg s x) :
    (∀ a : Act, a.Own → ∀ e, step cfg s a ≠ .err e) ∧ (s.main = .idle ∨ ∃ a s', a.Own ∧ step cfg s a = .ok s') := by
  have hst := h.stage
  have herr : ∀ a : Act, a.Own → ∀ e, step cfg s a ≠ .err e := by
    intro a ha e hs
    rcases C72_only_two_partial hf h.reach hs with ⟨-, rfl⟩ | ⟨-, ⟨i, rfl⟩, -⟩
    · simp only [step] at hs
      split at hs
      · rename_i y hm
        rw [hm] at hst
        obtain ⟨rfl, hcl⟩ := hst
        have h1 := C72_only_two_partial (s := s) (a := .mainRelease) hf h.reach (by simp only [step, hm]; exact hs)
        rcases h1 with ⟨rfl, -⟩ | ⟨-, ⟨i, hi⟩, -⟩
        · unfold release at hs
          simp only [hcl] at hs
          (repeat' split at hs) <;> simp_all
        · cases hi
      · cases hs
    · cases ha
  refine ⟨herr, ?_⟩
  have key : ∀ a : Act, a.Own → step cfg s a ≠ .panic → step cfg s a ≠ .block → ∃ a s', a.Own ∧ step cfg s a = .ok s' := by
    intro a ha h1 h2
    cases hs : step cfg s a with
    | ok s' => exact ⟨a, s', ha, hs⟩
    | err e => exact absurd hs (herr a ha e)
    | panic => exact absurd hs h1
    | block => exact absurd hs h2
  cases hm : s.main with
  | before => rw [hm] at hst; cases hst
  | connecting f => rw [hm] at hst; cases hst
  | exited => rw [hm] at hst; cases hst
  | idle => exact .inl rfl
  | got y =>
    refine .inr ?_
    by_cases hle : (s.infos y).sendID ≤ s.last
    · exact ⟨_, _, .handle none, by simp only [step, hm, hle, if_true]; rfl⟩
    · exact key (.handle none) (.handle none) (by simp [step, hm, hle, begin, acquire]) (by simp [step, hm, hle, begin, acquire])
  | leaving y =>
    refine .inr (key .mainRelease .release ?_ ?_) <;> simp only [step, hm]
    · exact release_no_panic.1
    · exact release_no_panic.2
  | flush d f =>
    refine .inr ?_
    cases f with
    | acquired n => exact key (.mainFlush .swap none) (.flush _ _) (by simp [step, hm, flushStep]) (by simp [step, hm, flushStep])
    | swapped y msgs =>
      by_cases he : msgs = []
      · refine key (.mainFlush .close none) (.flush _ _) ?_ ?_ <;> simp only [step, hm, flushStep, he] <;> simp <;>
          cases (s.infos y).closed <;> simp
      · refine key (.mainFlush .check none) (.flush _ _) ?_ ?_ <;> simp only [step, hm, flushStep, he] <;> simp <;>
          cases s.done <;> simp
    | checked y msgs => exact key (.mainFlush (.write true) none) (.flush _ _) (by simp [step, hm, flushStep]) (by simp [step, hm, flushStep])
    | wrote y msgs ok =>
      refine key (.mainFlush .close none) (.flush _ _) ?_ ?_ <;> simp only [step, hm, flushStep] <;>
          cases (s.infos y).closed <;> simp
    | ended y msgs =>
      have h1 := release_no_panic (s := s) (x := y)
      refine key (.mainFlush .release none) (.flush _ _) ?_ ?_ <;> simp only [step, hm, flushStep] <;>
        cases hh : release s y <;> simp_all

def Act.own : Act → Bool
  | .handle _ | .mainFlush .. | .mainRelease => true
  | _ => false

theorem own_iff {a : Act} : a.own = true ↔ a.Own := by
  constructor
  · intro h
    cases a <;> first | (cases h; done) | constructor
  · intro h; cases h <;> rfl

/-- What happens after the loop has taken a `SendInfo`, until it comes back to its `select`: `n` steps of the loop and any
number of steps of other goroutines, none of which is a `Close`. -/
inductive Round (cfg : Cfg) : State → Nat → State → Prop
  | refl (s) : Round cfg s 0 s
  | own {s n s' s''} (a : Act) (ha : a.Own) : Round cfg s n s' → DelayedSend.step cfg s' a = .ok s'' → Round cfg s (n + 1) s''
  | other {s n s' s''} (a : Act) (ha : ¬ a.Own) : Round cfg s n s' → s'.main ≠ .idle → DelayedSend.step cfg s' a = .ok s'' →
      s''.closer = .none → Round cfg s n s''

/-- **C121 for a connected session with the delay, without fragmentation, before anybody calls `Close`**: as soon as the sender
loop waits for work it takes the `SendInfo`; whatever the backend answers, and whatever other goroutines do in between, it
then makes at most seven steps; none of them crashes; as long as it has not come back to its `select` it can make the next
one; and when it has, the message is sent (or has failed), so that `Wait` returns. -/
theorem C121_partial {cfg : Cfg} {s : State} (hf : cfg.frag = false) (hr : Reachable cfg s) (hc : s.closer = .none)
    (hi : s.main = .idle) {i : Nat} {u : User} (hu : s.users[i]? = some u) (hn : u.sendNow = true) :
    ∃ s1, step cfg s (.sendNowChan i) = .ok s1 ∧ ∀ n s2, Round cfg s1 n s2 →
      n ≤ 7 ∧ (∀ a : Act, a.Own → ∀ e, step cfg s2 a ≠ .err e) ∧
      ((s2.main = .idle ∧ (s2.infos u.info).closed = true) ∨ ∃ a s3, a.Own ∧ step cfg s2 a = .ok s3) := by
  have h1 : step cfg s (.sendNowChan i) =
      .ok { s with main := .got u.info, users := s.users.eraseIdx i ++ [{ u with sendNow := false }] } := by
    simp [step, hu, hn, hi]
  refine ⟨_, h1, fun n s2 hrun => ?_⟩
  have hb : (s.infos u.info).busy = true := by
    refine (inv_reachable hr).1.ref.firm _ (List.mem_cons_of_mem _ (List.mem_append_right _ ?_))
    exact List.mem_map_of_mem (List.mem_of_getElem? hu)
  have h0 := Serving.mk (x := u.info) (Reachable.step _ hr h1) hc (.inr hb) rfl
  have key : Serving cfg s2 u.info ∧ n + s2.main.left ≤ 7 := by
    clear h1
    induction hrun with
    | refl => exact ⟨h0, by simp [Main.left]⟩
    | own a ha _ hs ih =>
      obtain ⟨h2, h3⟩ := ih
      obtain ⟨h4, h5⟩ := serving_step hf h2 ha hs
      exact ⟨h4, by omega⟩
    | other a ha _ hni hs hcl ih =>
      obtain ⟨h2, h3⟩ := ih
      obtain ⟨h4, h5⟩ := serving_other hf h2 ha hni hs hcl
      exact ⟨h4, by rw [h5]; exact h3⟩
  obtain ⟨h2, h3⟩ := key
  obtain ⟨h4, h5⟩ := serving_live hf h2
  refine ⟨by omega, h4, ?_⟩
  rcases h5 with h5 | h5
  · have := h2.stage
    rw [h5] at this
    exact .inl ⟨h5, this⟩
  · exact .inr h5

/-- **C121 is violated with fragmentation**: a call for a message whose fragments are still being sent crashes the process;
nobody has called `Close`, and the context has not ended. -/
theorem C121_violated_crash : ∃ s, Reachable exFragCfg s ∧ step exFragCfg s .mainRelease = .err .unfinishedRelease :=
  crashOf_eq (as := connected ++ [.fragment none, .sendNow 0, .sendNowChan 0, .handle none, .mainFlush .swap none,
    .mainFlush .close none, .mainFlush .release none]) (by decide +kernel)

/-- A state in which the theorem applies: one message is waiting, and `SendNowAndWait` has been called for it. -/
def nowRun : List Act := connected ++ [.write exMsg none, .sendNow 0]

example : Reachable exCfg (okState exCfg nowRun) ∧ (okState exCfg nowRun).closer = .none ∧ (okState exCfg nowRun).main = .idle ∧
    (okState exCfg nowRun).users = [⟨1, some 0, true⟩] ∧ ((okState exCfg nowRun).infos 1).closed = false :=
  ⟨runActs_reachable (okState_eq (by decide +kernel)), by decide +kernel⟩

/-- The steps of a round, as a list: is it the loop? -/
def runRound (cfg : Cfg) : State → List Act → Option (Nat × State)
  | s, [] => some (0, s)
  | s, a :: as =>
    match DelayedSend.step cfg s a with
    | .ok s' =>
      if a.own then (runRound cfg s' as).map fun p => (p.1 + 1, p.2)
      else if s.main ≠ .idle ∧ s'.closer = .none then runRound cfg s' as else none
    | _ => none

theorem runRound_round {cfg : Cfg} {s0 : State} {as : List Act} : ∀ {k n : Nat} {s s' : State}, Round cfg s0 k s →
    runRound cfg s as = some (n, s') → Round cfg s0 (k + n) s' := by
  induction as with
  | nil => intro k n s s' h hs; cases hs; exact h
  | cons a as ih =>
    intro k n s s' h hs
    unfold runRound at hs
    split at hs
    · rename_i s1 h1
      split at hs
      · rename_i ho
        cases h2 : runRound cfg s1 as with
        | none => rw [h2] at hs; cases hs
        | some p =>
          rw [h2] at hs; cases hs
          have := ih (.own a (own_iff.1 ho) h h1) (n := p.1) (s' := p.2) (by rw [h2])
          rw [Nat.add_right_comm] at this; exact this
      · rename_i ho
        split at hs
        · rename_i h2
          exact ih (.other a (fun e => ho (own_iff.2 e)) h h2.1 h1 h2.2) hs
        · cases hs
    · cases hs

/-- While the loop serves the call, another goroutine writes, and the backend fails. -/
def roundRun : List Act := [.handle none, .write [4] none, .mainFlush .swap none, .write [5] none, .mainFlush .check none,
  .mainFlush (.write false) none, .mainFlush .close none, .userRelease 1, .mainFlush .release none, .sendNow 0, .mainRelease]

def afterNow : State := okState exCfg (nowRun ++ [.sendNowChan 0])

example : (runRound exCfg afterNow roundRun).map (fun p => (p.1, p.2.main, (p.2.infos 1).closed, p.2.accepted.length)) =
    some (7, .idle, true, 3) := by decide +kernel

/-- What waits is blocked, not crashed: a call while the loop serves another one, a call whose message is not sent, a second end. -/
example : SendNow.step ⟨true⟩ ⟨.busy 0, false, [false], [.waiting 0, .sending 0]⟩ (.handoff 1) = .block ∧
    SendNow.step ⟨true⟩ ⟨.busy 0, false, [false], [.waiting 0, .sending 0]⟩ (.handoff 0) = .block ∧
    SendNow.step ⟨true⟩ ⟨.busy 0, false, [false], [.waiting 0, .sending 0]⟩ (.ret 0) = .block ∧
    SendNow.step ⟨true⟩ ⟨.busy 0, false, [false], [.waiting 0, .sending 0]⟩ (.ret 1) = .block ∧
    SendNow.step ⟨true⟩ ⟨.idle, false, [false], []⟩ .served = .block ∧
    SendNow.step ⟨true⟩ ⟨.exited, true, [false], []⟩ .exit = .block := by decide +kernel

#print axioms SendNow.C121_wait
#print axioms SendNow.C121_not_before
#print axioms SendNow.C121_violated
#print axioms SendNow.C121_violated_example
#print axioms SendNow.C121_violated_unconnected
#print axioms C121_partial
#print axioms C121_violated_crash
#print axioms SendNow.C121_exit

end Verif.DelayedSend
