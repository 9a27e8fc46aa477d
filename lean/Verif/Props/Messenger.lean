import Verif.Lemmas.Messenger
/-!
# Properties of messengers and handlers: C69, C73, and C70 (part)
-/
namespace Verif.Messenger

theorem runActs_reachable : ∀ (as : List Act) {s s' : State}, Reachable s → runActs s as = .ok s' → Reachable s' := by
  intro as
  induction as with
  | nil => intro s s' h hs; simp only [runActs, Outcome.ok.injEq] at hs; subst hs; exact h
  | cons a as ih =>
    intro s s' h hs
    simp only [runActs] at hs
    split at hs <;> try (simp only [reduceCtorEq] at hs; done)
    rename_i s1 h1
    exact ih (.step a h h1) hs

/-- The state after a run, with a default. -/
def okState (r : Outcome Crash State) : State := match r with | .ok s => s | _ => State.init

def isOk (r : Outcome Crash State) : Bool := match r with | .ok _ => true | _ => false

theorem okState_eq {r : Outcome Crash State} (h : isOk r = true) : r = .ok (okState r) := by
  cases r <;> simp_all [isOk, okState]

theorem reachable_run {as : List Act} (h : isOk (runActs State.init as) = true) :
    Reachable (okState (runActs State.init as)) := runActs_reachable as .init (okState_eq h)

/-! ### C69 -/

/-- C69, first half: the messages which were dispatched are, in the order of arrival, all that arrived, but for the one in
hand: each message has exactly one outcome. -/
theorem C69_outcome {s : State} (h : Reachable s) :
    ∃ rest : List Nat, s.log.map Prod.fst ++ rest = s.arrived ∧ rest.length ≤ 1 ∧ (s.reader = .idle → rest = []) := by
  have hi := (inv_reachable h).log
  refine ⟨_, hi, ?_, fun hr => by rw [hr]⟩
  split <;> simp

/-- C69: where a message goes.  With a registered messenger, to its handler; else to the queue of its type, if there is
one. -/
theorem C69_destination {s s' : State} (hs : step s .dispatch = .ok s') :
    ∃ t out, s'.log = s.log ++ [(t, out)] ∧ s'.reader = .idle ∧
      ((s.reader = .found t ∧ ∃ i o h, lookup s.cur t = some i ∧ s.objs[i]? = some o ∧ o.handler = some h ∧
        out = .handled h) ∨
      (s.reader = .queueing t ∧ out = if t ∈ s.chans then .queued else .dropped)) := by
  simp only [step] at hs
  split at hs
  · rename_i t hrd
    split at hs
    · simp at hs
    · split at hs
      · simp at hs
      · rename_i i hi
        split at hs <;> simp only [Outcome.ok.injEq, reduceCtorEq] at hs
        rename_i hd hh
        subst hs
        cases ho : s.objs[i]? with
        | none => simp [ho] at hh
        | some o =>
          simp only [ho, Option.bind_some] at hh
          exact ⟨t, _, rfl, rfl, .inl ⟨hrd, i, o, hd, hi, ho, hh, rfl⟩⟩
  · rename_i t hrd
    split at hs
    · simp at hs
    · simp only [Outcome.ok.injEq] at hs; subst hs
      exact ⟨t, _, rfl, rfl, .inr ⟨hrd, rfl⟩⟩
  · simp at hs

/-- A message found without a messenger is one for whose type no messenger was registered when it arrived. -/
theorem C69_arrival {s s' : State} {t : Nat} (hs : step s (.arrive t) = .ok s') :
    s'.arrived = s.arrived ++ [t] ∧ (lookup s.cur t = none → s'.reader = .queueing t) ∧
      ((lookup s.cur t).isSome = true → s'.reader = .found t) := by
  simp only [step] at hs
  split at hs
  · split at hs
    · simp at hs
    · split at hs <;> simp only [Outcome.ok.injEq] at hs <;> subst hs <;> simp [*]
  · simp at hs

/-- C69, second half, for the executions in which it holds: there are only three ways to crash.  The reader reads the
map while it is being written (or `Read` the other map); it finds a messenger without a handler; or `SetHandlerFuncs` is called on a session whose
context has ended. -/
theorem C69_no_crash_partial {s : State} {a : Act} {e : Crash} (hr : Reachable s) (hs : step s a = .err e) :
    (e = .concurrentMap ∧ writing s = true ∧ ((∃ t, a = .arrive t) ∨ a = .dispatch ∨ a = .clean ∨ a = .read)) ∨
    (e = .nilHandler ∧ a = .dispatch ∧ ∃ t i o, s.reader = .found t ∧ lookup s.cur t = some i ∧ s.objs[i]? = some o ∧
      o.handler = none) ∨
    (e = .nilMessenger ∧ s.ctx = true ∧ ∃ t h, a = .register t (some h)) := by
  have hi := inv_reachable hr
  cases a with
  | cancel => simp [step] at hs
  | register t h =>
    simp only [step] at hs
    split at hs
    · rename_i hc
      split at hs <;> simp only [reduceCtorEq, Outcome.err.injEq] at hs
      subst hs
      exact .inr (.inr ⟨rfl, hc, t, _, rfl⟩)
    · simp at hs
  | next i =>
    exfalso
    simp only [step] at hs
    split at hs
    · simp at hs
    · split at hs
      · simp at hs
      · split at hs
        · simp at hs
        · rename_i obj _
          have : ∃ objs, closeOld s.objs s.cur obj.msgType = .ok objs := by
            unfold closeOld
            split
            · rename_i old _
              obtain ⟨o, e, _⟩ := closeObj_ok old hi.done
              exact ⟨o, e⟩
            · exact ⟨_, rfl⟩
          obtain ⟨objs, he⟩ := this
          simp [he] at hs
    · simp at hs
    · split at hs <;> simp at hs
    · split at hs <;> simp at hs
  | setHandler o h => simp only [step] at hs; split at hs <;> simp at hs
  | close o =>
    obtain ⟨objs, e1, _⟩ := closeObj_ok o hi.done
    simp [step, e1] at hs
  | arrive t =>
    simp only [step] at hs
    split at hs
    · split at hs
      · rename_i hw
        simp only [Outcome.err.injEq] at hs
        exact .inl ⟨hs.symm, hw, .inl ⟨t, rfl⟩⟩
      · split at hs <;> simp at hs
    · simp at hs
  | dispatch =>
    simp only [step] at hs
    split at hs
    · rename_i t hrd
      split at hs
      · rename_i hw
        simp only [Outcome.err.injEq] at hs
        exact .inl ⟨hs.symm, hw, .inr (.inl rfl)⟩
      · split at hs
        · rename_i hn
          have := hi.found t hrd
          simp [hn] at this
        · rename_i i hlk
          split at hs <;> simp only [reduceCtorEq, Outcome.err.injEq] at hs
          rename_i hh
          have hlt := (hi.cur _ (lookup_mem hlk)).1
          refine .inr (.inl ⟨hs.symm, rfl, t, i, s.objs[i], hrd, hlk, List.getElem?_eq_getElem hlt, ?_⟩)
          simpa [List.getElem?_eq_getElem hlt] using hh
    · split at hs <;> simp at hs
    · simp at hs
  | clean =>
    simp only [step] at hs
    split at hs
    · split at hs
      · rename_i hw
        simp only [Outcome.err.injEq] at hs
        exact .inl ⟨hs.symm, hw, .inr (.inr (.inl rfl))⟩
      · obtain ⟨objs, e1, _⟩ := closeAll_ok s.cur hi.done
        simp [e1] at hs
    · simp at hs
  | read =>
    simp only [step] at hs
    split at hs
    · rename_i hw
      simp only [Outcome.err.injEq] at hs
      exact .inl ⟨hs.symm, hw, .inr (.inr (.inr rfl))⟩
    · simp at hs

/-- The careful use: handlers are registered with `SetHandlerFuncs`, while the session lives, and neither the reader nor
`Read` takes a step while a registration is in progress. -/
def Calm (s : State) : Act → Prop
  | .register _ h => h.isSome = true ∧ s.ctx = false
  | .arrive _ => s.regs = []
  | .dispatch => s.regs = []
  | .clean => s.regs = []
  | .read => s.regs = []
  | _ => True

inductive ReachableCalm : State → Prop
  | init : ReachableCalm State.init
  | step {s s'} (a : Act) : ReachableCalm s → Calm s a → step s a = .ok s' → ReachableCalm s'

theorem ReachableCalm.reachable {s : State} (h : ReachableCalm s) : Reachable s := by
  induction h with
  | init => exact .init
  | step a _ _ hs ih => exact .step a ih hs

/-- The handler which a registration will set. -/
def Reg.handler : Reg → Option Nat
  | .created _ h => h
  | .locked _ h => h
  | .writing _ h => h
  | .registered _ h => some h

/-- Every messenger has a handler or is about to get one. -/
structure Handlers (s : State) : Prop where
  some' : ∀ r ∈ s.regs, r.handler.isSome = true
  objs : ∀ (j : Nat) (o : Obj), s.objs[j]? = some o → o.handler.isSome = true ∨ ∃ r ∈ s.regs, r.obj = j

theorem handlers_later {s : State} (h : Handlers s) {objs : List Obj} (hl : Later s.objs objs) :
    Handlers { s with objs := objs } := by
  refine ⟨h.some', fun j o ho => ?_⟩
  have hlt := (List.getElem?_eq_some_iff.1 ho).1
  rw [hl.len] at hlt
  obtain ⟨o', k1, _, k3, _⟩ := hl.keep j s.objs[j] (List.getElem?_eq_getElem hlt)
  rw [k1] at ho; simp only [Option.some.injEq] at ho; subst ho
  rcases h.objs j _ (List.getElem?_eq_getElem hlt) with h1 | h1
  · exact .inl (k3 h1)
  · exact .inr h1

/-- A registration that goes on with the same messenger and handler. -/
theorem handlers_set {s : State} (h : Handlers s) {i : Nat} {r r' : Reg} (hi : s.regs[i]? = some r)
    (h1 : r'.obj = r.obj) (h2 : r'.handler = r.handler) : Handlers { s with regs := s.regs.set i r' } := by
  have hm : r ∈ s.regs := List.mem_iff_getElem?.2 ⟨i, hi⟩
  refine ⟨fun x hx => ?_, fun j o ho => ?_⟩
  · rcases mem_set_cases hx with rfl | hx
    · rw [h2]; exact h.some' r hm
    · exact h.some' x hx
  · rcases h.objs j o ho with h3 | ⟨x, h3, h4⟩
    · exact .inl h3
    · by_cases hx : x = r
      · subst hx
        exact .inr ⟨r', mem_set_self hi, h1.trans h4⟩
      · exact .inr ⟨x, mem_set_other hi h3 hx, h4⟩

theorem handlers_step {s s' : State} {a : Act} (hinv : Inv s) (h : Handlers s) (hc : Calm s a) (hs : step s a = .ok s') :
    Handlers s' := by
  cases a with
  | cancel => simp only [step, Outcome.ok.injEq] at hs; subst hs; exact ⟨h.some', h.objs⟩
  | register t hd =>
    simp only [step] at hs
    split at hs
    · rename_i hctx; simp only [Calm] at hc; rw [hc.2] at hctx; simp at hctx
    · simp only [Outcome.ok.injEq] at hs; subst hs
      refine ⟨fun r hr => ?_, fun j o ho => ?_⟩
      · rcases List.mem_append.1 hr with hr | hr
        · exact h.some' r hr
        · simp only [List.mem_singleton] at hr; subst hr; exact hc.1
      · rcases getElem?_append_one ho with ho | ⟨hj, _⟩
        · rcases h.objs j o ho with h1 | ⟨r, h1, h2⟩
          · exact .inl h1
          · exact .inr ⟨r, List.mem_append_left _ h1, h2⟩
        · exact .inr ⟨.created s.objs.length hd, List.mem_append_right _ (by simp), hj.symm⟩
  | next i =>
    simp only [step] at hs
    split at hs
    · simp at hs
    · rename_i o hd hi
      split at hs
      · simp at hs
      · split at hs
        · simp at hs
        · rename_i obj _
          split at hs <;> simp only [Outcome.ok.injEq, reduceCtorEq] at hs
          rename_i objs he
          subst hs
          have hl : Later s.objs objs := by
            unfold closeOld at he
            split at he
            · rename_i old _
              obtain ⟨x, e1, l1, _⟩ := closeObj_ok old hinv.done
              rw [e1] at he; simp only [Outcome.ok.injEq] at he; subst he; exact l1
            · simp only [Outcome.ok.injEq] at he; subst he; exact .refl _
          exact handlers_set (handlers_later h hl) (r' := .locked o hd) hi rfl rfl
    · rename_i o hd hi
      simp only [Outcome.ok.injEq] at hs; subst hs
      exact handlers_set h (r' := .writing o hd) hi rfl rfl
    · rename_i o hd hi
      split at hs
      · simp at hs
      · simp only [Outcome.ok.injEq] at hs; subst hs
        have hm := h.some' _ (List.mem_iff_getElem?.2 ⟨i, hi⟩)
        cases hd with
        | none => simp [Reg.handler] at hm
        | some hh =>
          have := handlers_set h (r' := .registered o hh) hi rfl rfl
          exact ⟨this.some', this.objs⟩
    · rename_i o hd hi
      split at hs
      · simp at hs
      · rename_i obj ho
        simp only [Outcome.ok.injEq] at hs; subst hs
        refine ⟨fun r hr => h.some' r (List.mem_of_mem_eraseIdx hr), fun j x hx => ?_⟩
        by_cases hj : o = j
        · subst hj
          rw [List.getElem?_set_self (List.getElem?_eq_some_iff.1 ho).1] at hx
          simp only [Option.some.injEq] at hx
          rw [← hx]
          exact .inl rfl
        · rw [List.getElem?_set_ne hj] at hx
          rcases h.objs j x hx with h1 | ⟨r, h1, h2⟩
          · exact .inl h1
          · exact .inr ⟨r, mem_erase_other hi h1 (fun e => by subst e; exact hj h2), h2⟩
  | setHandler o hd =>
    simp only [step] at hs
    split at hs
    · simp at hs
    · rename_i obj ho
      simp only [Outcome.ok.injEq] at hs; subst hs
      exact handlers_later h (later_set (o' := { obj with handler := some hd }) ho rfl (fun _ => rfl) id)
  | close o =>
    obtain ⟨objs, e1, l1, _⟩ := closeObj_ok o hinv.done
    simp only [step, e1, Outcome.ok.injEq] at hs; subst hs
    exact handlers_later h l1
  | arrive t =>
    simp only [step] at hs
    split at hs
    · split at hs
      · simp at hs
      · split at hs <;> simp only [Outcome.ok.injEq] at hs <;> subst hs <;> exact ⟨h.some', h.objs⟩
    · simp at hs
  | dispatch =>
    simp only [step] at hs
    split at hs
    · split at hs
      · simp at hs
      · split at hs
        · simp at hs
        · split at hs <;> simp only [Outcome.ok.injEq, reduceCtorEq] at hs
          subst hs; exact ⟨h.some', h.objs⟩
    · split at hs
      · simp at hs
      · simp only [Outcome.ok.injEq] at hs; subst hs; exact ⟨h.some', h.objs⟩
    · simp at hs
  | clean =>
    simp only [step] at hs
    split at hs
    · split at hs
      · simp at hs
      · obtain ⟨objs, e1, l1, _⟩ := closeAll_ok s.cur hinv.done
        simp only [e1, Outcome.ok.injEq] at hs; subst hs
        have := handlers_later h l1
        exact ⟨this.some', this.objs⟩
    · simp at hs
  | read =>
    simp only [step] at hs
    split at hs <;> simp only [Outcome.ok.injEq, reduceCtorEq] at hs
    subst hs; exact h

theorem handlers_reachable {s : State} (h : ReachableCalm s) : Handlers s := by
  induction h with
  | init => exact ⟨by simp [State.init], by simp [State.init]⟩
  | step a hr hc hs ih => exact handlers_step (inv_reachable hr.reachable) ih hc hs

/-- C69, second half, for careful use (see `Calm`): nothing crashes. -/
theorem C69_calm_partial {s : State} {a : Act} (hr : ReachableCalm s) (hc : Calm s a) : ∀ e, step s a ≠ .err e := by
  intro e hs
  have hw : s.regs = [] → writing s = false := fun h => by simp [writing, h]
  rcases C69_no_crash_partial hr.reachable hs with ⟨_, h1, h2⟩ | ⟨_, rfl, t, i, o, _, h2, h3, h4⟩ | ⟨_, h1, t, h, rfl⟩
  · have hregs : s.regs = [] := by
      rcases h2 with ⟨t, rfl⟩ | rfl | rfl | rfl <;> exact hc
    rw [hw hregs] at h1; simp at h1
  · rcases (handlers_reachable hr).objs i o h3 with h | ⟨r, h, _⟩
    · rw [h4] at h; simp at h
    · rw [show s.regs = [] from hc] at h; simp at h
  · rw [hc.2] at h1; simp at h1

/-- A handler for type 5 is registered, and replaced by another one between two messages. -/
def calmActs : List Act := [.arrive 5, .dispatch, .register 5 (some 1), .next 0, .next 0, .next 0, .next 0, .arrive 5,
  .dispatch, .register 5 (some 2), .next 0, .next 0, .next 0, .next 0, .arrive 5, .dispatch, .arrive 0, .dispatch, .clean]

theorem calmRun : ∀ (as : List Act) {s : State}, ReachableCalm s →
    (∀ (n : Nat) (h : n < as.length) s', runActs s (as.take n) = .ok s' → Calm s' as[n]) →
    ∀ s', runActs s as = .ok s' → ReachableCalm s' := by
  intro as
  induction as with
  | nil => intro s h _ s' hs; simp only [runActs, Outcome.ok.injEq] at hs; subst hs; exact h
  | cons a as ih =>
    intro s h hp s' hs
    simp only [runActs] at hs
    split at hs <;> try (simp only [reduceCtorEq] at hs; done)
    rename_i s1 h1
    refine ih (.step a h (hp 0 (by simp) s rfl) h1) (fun n hn s2 h2 => ?_) s' hs
    refine hp (n + 1) (by simp; omega) s2 ?_
    simp only [List.take_succ_cons, runActs, h1]
    exact h2

instance (s : State) : ∀ a, Decidable (Calm s a)
  | .register _ h => inferInstanceAs (Decidable (h.isSome = true ∧ s.ctx = false))
  | .arrive _ => inferInstanceAs (Decidable (s.regs = []))
  | .dispatch => inferInstanceAs (Decidable (s.regs = []))
  | .clean => inferInstanceAs (Decidable (s.regs = []))
  | .read => inferInstanceAs (Decidable (s.regs = []))
  | .cancel => inferInstanceAs (Decidable True)
  | .next _ => inferInstanceAs (Decidable True)
  | .setHandler _ _ => inferInstanceAs (Decidable True)
  | .close _ => inferInstanceAs (Decidable True)

example : ReachableCalm (okState (runActs State.init calmActs)) ∧
    (okState (runActs State.init calmActs)).log = [(5, .dropped), (5, .handled 1), (5, .handled 2), (0, .queued)] ∧
    (okState (runActs State.init calmActs)).objs.map (·.dones) = [1, 1] := by
  refine ⟨calmRun calmActs .init (fun n hn s' hs => ?_) _ (okState_eq (by decide +kernel)), by decide +kernel⟩
  have h : ∀ n (h : n < calmActs.length), Calm (okState (runActs State.init (calmActs.take n))) calmActs[n] := by
    decide +kernel
  have := h n hn
  rw [hs] at this
  exact this

/-- Negation of C69: a message that arrives between the registration of the messenger and `SetHandler`, inside
`SetHandlerFuncs`, crashes the program. -/
theorem C69_violated : ∃ s, Reachable s ∧ s.regs = [.registered 0 1] ∧ s.reader = .found 5 ∧
    step s .dispatch = .err .nilHandler := by
  have h : isOk (runActs State.init [.register 5 (some 1), .next 0, .next 0, .next 0, .arrive 5]) = true := by decide +kernel
  exact ⟨_, reachable_run h, by decide +kernel, by decide +kernel, by decide +kernel⟩

/-- Negation of C69: the same for a messenger of `NewMessenger`, until its owner calls `SetHandler`. -/
theorem C69_violated_messenger : ∃ s, Reachable s ∧ s.regs = [] ∧ s.reader = .found 5 ∧
    step s .dispatch = .err .nilHandler := by
  have h : isOk (runActs State.init [.register 5 none, .next 0, .next 0, .next 0, .arrive 5]) = true := by decide +kernel
  exact ⟨_, reachable_run h, by decide +kernel, by decide +kernel, by decide +kernel⟩

/-- Negation of C69: registering a handler for one type while a message of any type arrives, or `Read` is called:
a map is read while it is written. -/
theorem C69_violated_map : ∃ s, Reachable s ∧ s.regs = [.writing 0 (some 1)] ∧
    (∀ t, step s (.arrive t) = .err .concurrentMap) ∧ step s .read = .err .concurrentMap := by
  have h : isOk (runActs State.init [.register 5 (some 1), .next 0, .next 0]) = true := by decide +kernel
  exact ⟨_, reachable_run h, by decide +kernel, fun t => rfl, rfl⟩

/-! ### C70 -/

/-- Negation of C70: `SetHandlerFuncs` on a session that has ended crashes. -/
theorem C70_violated_handler {s : State} (h : s.ctx = true) (t hd : Nat) :
    step s (.register t (some hd)) = .err .nilMessenger := by simp [step, h]

example : ∃ s, Reachable s ∧ s.ctx = true ∧ s.reader = .ended :=
  ⟨_, reachable_run (as := [.clean]) (by decide +kernel), by decide +kernel⟩

/-! ### C73 -/

/-- C73: a messenger is never closed twice. -/
theorem C73_once {s : State} (h : Reachable s) : ∀ o ∈ s.objs, o.dones ≤ 1 := by
  intro o ho
  obtain ⟨j, hj⟩ := List.mem_iff_getElem?.1 ho
  have := (inv_reachable h).done j o hj
  split at this <;> omega

/-- C73: at any time a messenger is closed, in use, or being registered. -/
theorem C73_owner {s : State} (h : Reachable s) : ∀ (j : Nat) (o : Obj), s.objs[j]? = some o →
    o.dones = 1 ∨ (∃ t, lookup s.cur t = some j) ∨ ∃ r ∈ s.regs, r.early = true ∧ r.obj = j := by
  have hi := inv_reachable h
  intro j o ho
  rcases hi.cover j o ho with h1 | ⟨t, h1⟩ | h1
  · exact .inl (by rw [hi.done j o ho, if_pos h1])
  · exact .inr (.inl ⟨t, (hi.cur _ h1).2⟩)
  · exact .inr (.inr h1)

/-- After the clean-up with no registration in progress nothing is left open, for ever. -/
structure AllClosed (s : State) : Prop where
  ctx : s.ctx = true
  regs : ∀ r ∈ s.regs, r.early = false
  objs : ∀ (j : Nat) (o : Obj), s.objs[j]? = some o → o.isClosed = true

theorem allClosed_later {s : State} (h : AllClosed s) {objs : List Obj} (hl : Later s.objs objs) :
    AllClosed { s with objs := objs } := by
  refine ⟨h.ctx, h.regs, fun j o ho => ?_⟩
  have hlt := (List.getElem?_eq_some_iff.1 ho).1
  rw [hl.len] at hlt
  obtain ⟨o', k1, _, _, k4⟩ := hl.keep j s.objs[j] (List.getElem?_eq_getElem hlt)
  rw [k1] at ho; simp only [Option.some.injEq] at ho; subst ho
  exact k4 (h.objs j _ (List.getElem?_eq_getElem hlt))

theorem allClosed_step {s s' : State} {a : Act} (hinv : Inv s) (h : AllClosed s) (hs : step s a = .ok s') : AllClosed s' := by
  cases a with
  | cancel => simp only [step, Outcome.ok.injEq] at hs; subst hs; exact ⟨rfl, h.regs, h.objs⟩
  | register t hd =>
    simp only [step, h.ctx, if_true] at hs
    split at hs <;> simp only [Outcome.ok.injEq, reduceCtorEq] at hs
    subst hs; exact h
  | next i =>
    simp only [step] at hs
    split at hs
    · simp at hs
    · rename_i hi; exact absurd (h.regs _ (List.mem_iff_getElem?.2 ⟨i, hi⟩)) (by simp [Reg.early])
    · rename_i hi; exact absurd (h.regs _ (List.mem_iff_getElem?.2 ⟨i, hi⟩)) (by simp [Reg.early])
    · rename_i hi; exact absurd (h.regs _ (List.mem_iff_getElem?.2 ⟨i, hi⟩)) (by simp [Reg.early])
    · rename_i o hd hi
      split at hs
      · simp at hs
      · rename_i obj ho
        simp only [Outcome.ok.injEq] at hs; subst hs
        have := allClosed_later h (later_set (o' := { obj with handler := some hd }) ho rfl (fun _ => rfl) id)
        exact ⟨this.ctx, fun r hr => this.regs r (List.mem_of_mem_eraseIdx hr), this.objs⟩
  | setHandler o hd =>
    simp only [step] at hs
    split at hs
    · simp at hs
    · rename_i obj ho
      simp only [Outcome.ok.injEq] at hs; subst hs
      exact allClosed_later h (later_set (o' := { obj with handler := some hd }) ho rfl (fun _ => rfl) id)
  | close o =>
    obtain ⟨objs, e1, l1, _⟩ := closeObj_ok o hinv.done
    simp only [step, e1, Outcome.ok.injEq] at hs; subst hs
    exact allClosed_later h l1
  | arrive t =>
    simp only [step] at hs
    split at hs
    · split at hs
      · simp at hs
      · split at hs <;> simp only [Outcome.ok.injEq] at hs <;> subst hs <;> exact ⟨h.ctx, h.regs, h.objs⟩
    · simp at hs
  | dispatch =>
    simp only [step] at hs
    split at hs
    · split at hs
      · simp at hs
      · split at hs
        · simp at hs
        · split at hs <;> simp only [Outcome.ok.injEq, reduceCtorEq] at hs
          subst hs; exact ⟨h.ctx, h.regs, h.objs⟩
    · split at hs
      · simp at hs
      · simp only [Outcome.ok.injEq] at hs; subst hs; exact ⟨h.ctx, h.regs, h.objs⟩
    · simp at hs
  | clean =>
    simp only [step] at hs
    split at hs
    · split at hs
      · simp at hs
      · obtain ⟨objs, e1, l1, _⟩ := closeAll_ok s.cur hinv.done
        simp only [e1, Outcome.ok.injEq] at hs; subst hs
        have := allClosed_later h l1
        exact ⟨rfl, this.regs, this.objs⟩
    · simp at hs
  | read =>
    simp only [step] at hs
    split at hs <;> simp only [Outcome.ok.injEq, reduceCtorEq] at hs
    subst hs; exact h

/-- C73 when no registration is in progress as the session ends: then every messenger ever made has been closed
exactly once, so `WaitForClosure` returns for each; and this stays so, whatever is called afterwards. -/
theorem C73_closed_partial {s s1 s2 : State} {as : List Act} (hr : Reachable s) (hregs : ∀ r ∈ s.regs, r.early = false)
    (hs : step s .clean = .ok s1) (hrun : runActs s1 as = .ok s2) : ∀ o ∈ s2.objs, o.dones = 1 := by
  have hinv := inv_reachable hr
  have h1 : AllClosed s1 := by
    simp only [step] at hs
    split at hs
    · split at hs
      · simp at hs
      · obtain ⟨objs, e1, l1, d1, c1⟩ := closeAll_ok s.cur hinv.done
        simp only [e1, Outcome.ok.injEq] at hs; subst hs
        have hl := hinv.later l1 d1
        refine ⟨rfl, hregs, fun j o ho => ?_⟩
        rcases hl.cover j o ho with h2 | ⟨t, h2⟩ | ⟨r, h2, h3, _⟩
        · exact h2
        · exact c1 _ h2 o ho
        · rw [hregs r h2] at h3; simp at h3
    · simp at hs
  have hr1 : Reachable s1 := .step _ hr hs
  clear hs hinv hr hregs
  induction as generalizing s1 with
  | nil =>
    simp only [runActs, Outcome.ok.injEq] at hrun; subst hrun
    intro o ho
    obtain ⟨j, hj⟩ := List.mem_iff_getElem?.1 ho
    rw [(inv_reachable hr1).done j o hj, if_pos (h1.objs j o hj)]
  | cons a as ih =>
    simp only [runActs] at hrun
    split at hrun <;> try (simp only [reduceCtorEq] at hrun; done)
    rename_i s' hs'
    exact ih hrun (allClosed_step (inv_reachable hr1) h1 hs') (.step a hr1 hs')

example : ∃ s s1, Reachable s ∧ s.regs = [] ∧ s.objs.length = 2 ∧ step s .clean = .ok s1 :=
  ⟨_, _, reachable_run (as := calmActs.dropLast) (by decide +kernel), by decide +kernel, by decide +kernel,
    okState_eq (by decide +kernel)⟩

/-- Negation of C73: a registration that passed its check before the session ended and reaches the map afterwards.  The
session has ended, `NewMessenger` has returned its messenger, and it is not closed: `WaitForClosure` waits, and no
execution in which its owner does not close it itself changes this. -/
theorem C73_violated : ∃ s, Reachable s ∧ s.reader = .ended ∧ s.regs = [] ∧ s.objs.map (·.dones) = [0] ∧
    ∀ as s', (∀ a ∈ as, a ≠ .close 0) → runActs s as = .ok s' → ∃ o, s'.objs[0]? = some o ∧ o.dones = 0 := by
  have h : isOk (runActs State.init [.register 5 none, .clean, .next 0, .next 0, .next 0]) = true := by decide +kernel
  refine ⟨_, reachable_run h, by decide +kernel, by decide +kernel, by decide +kernel, ?_⟩
  have gen : ∀ (as : List Act) (s s' : State), s.ctx = true → s.reader = .ended → s.regs = [] →
      (∃ o, s.objs[0]? = some o ∧ o.dones = 0) → (∀ a ∈ as, a ≠ .close 0) → runActs s as = .ok s' →
      ∃ o, s'.objs[0]? = some o ∧ o.dones = 0 := by
    intro as
    induction as with
    | nil =>
      intro s s' _ _ _ h4 _ hs
      simp only [runActs, Outcome.ok.injEq] at hs; subst hs; exact h4
    | cons a as ih =>
      intro s s' h1 h2 h3 h4 h5 hs
      simp only [runActs] at hs
      split at hs <;> try (simp only [reduceCtorEq] at hs; done)
      rename_i s1 hs1
      have h5' : ∀ a ∈ as, a ≠ .close 0 := fun b hb => h5 b (List.mem_cons_of_mem _ hb)
      obtain ⟨o0, g1, g2⟩ := h4
      cases a with
      | cancel => simp only [step, Outcome.ok.injEq] at hs1; subst hs1; exact ih { s with ctx := true } s' rfl h2 h3 ⟨o0, g1, g2⟩ h5' hs
      | register t hd =>
        simp only [step, h1, if_true] at hs1
        split at hs1 <;> simp only [Outcome.ok.injEq, reduceCtorEq] at hs1
        subst hs1; exact ih _ s' h1 h2 h3 ⟨o0, g1, g2⟩ h5' hs
      | next i => simp [step, h3] at hs1
      | setHandler o hd =>
        simp only [step] at hs1
        split at hs1
        · simp at hs1
        · rename_i obj ho
          simp only [Outcome.ok.injEq] at hs1; subst hs1
          refine ih { s with objs := s.objs.set o { obj with handler := some hd } } s' h1 h2 h3 ?_ h5' hs
          by_cases h0 : o = 0
          · subst h0
            rw [ho] at g1; simp only [Option.some.injEq] at g1; subst g1
            exact ⟨_, List.getElem?_set_self (List.getElem?_eq_some_iff.1 ho).1, g2⟩
          · exact ⟨o0, by simp only [List.getElem?_set_ne h0]; exact g1, g2⟩
      | close o =>
        have hne : o ≠ 0 := fun e => h5 (.close o) (by simp) (by rw [e])
        simp only [step] at hs1
        split at hs1 <;> simp only [Outcome.ok.injEq, reduceCtorEq] at hs1
        rename_i objs he
        subst hs1
        refine ih { s with objs := objs } s' h1 h2 h3 ⟨o0, ?_, g2⟩ h5' hs
        unfold closeObj at he
        repeat' split at he
        all_goals simp only [Outcome.ok.injEq, reduceCtorEq] at he
        all_goals subst he
        all_goals first
          | exact g1
          | (simp only [List.getElem?_set_ne hne]; exact g1)
      | arrive t => simp [step, h2] at hs1
      | dispatch => simp [step, h2] at hs1
      | clean => simp [step, h2] at hs1
      | read =>
        simp only [step] at hs1
        split at hs1 <;> simp only [Outcome.ok.injEq, reduceCtorEq] at hs1
        subst hs1; exact ih _ s' h1 h2 h3 ⟨o0, g1, g2⟩ h5' hs
  intro as s' ha hs
  exact gen as _ s' (by decide +kernel) (by decide +kernel) (by decide +kernel) ⟨⟨5, none, false, 0⟩, by decide +kernel⟩ ha hs

#print axioms C69_outcome
#print axioms C69_destination
#print axioms C69_arrival
#print axioms C69_no_crash_partial
#print axioms C69_calm_partial
#print axioms C69_violated
#print axioms C69_violated_messenger
#print axioms C69_violated_map
#print axioms C70_violated_handler
#print axioms C73_once
#print axioms C73_owner
#print axioms C73_closed_partial
#print axioms C73_violated

end Verif.Messenger
