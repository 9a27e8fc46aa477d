import Verif.Lemmas.Wait
import Verif.Props.Sync
/-!
# Handlers that wait: C94, C95
-/
namespace Verif.Sync
open Calls

/-! ## C94 -/

theorem reader_ends {W : World} {s : Nat} {run : List Ev} (hW : ∀ s c, UserCode (fun _ => true) (W.code s c)) (h : Run W s reader run) :
    ∃ run', run = run' ++ [.set s .readerDone] ∧ Ev.set s .readerDone ∉ run' := by
  have hW' : ∀ s c, neverSets .readerDone (W.code s c) = true := fun s c =>
    neverSets_user (fun m => by cases m <;> decide +kernel) (hW s c)
  cases h with
  | seq h1 h =>
    cases h with
    | seq h2 h =>
      cases h with
      | @seq _ _ _ t3 t4 h3 h =>
        cases h with
        | set =>
          refine ⟨_ ++ (_ ++ t3), by simp only [List.append_assoc]; rfl, ?_⟩
          simp only [List.mem_append, not_or]
          exact ⟨never_run hW' h1 rfl s, never_run hW' h2 (by decide +kernel) s, never_run hW' h3 (by decide +kernel) s⟩

theorem only_reader {f : Flag} (hf : f = .readerDone ∨ f = .pauseStarted ∨ f = .item ∨ f = .stageRemote) :
    (∀ m : Method, neverSets f m.prog = true) ∧
    ∀ r : Role, (∀ p, r ≠ .user p) → r ≠ .reader → neverSets f r.prog = true := by
  constructor
  · intro m
    rcases hf with rfl | rfl | rfl | rfl <;> cases m <;> decide +kernel
  · intro r h1 h2
    cases r with
    | reader => exact absurd rfl h2
    | user p => exact absurd rfl (h1 p)
    | _ => rcases hf with rfl | rfl | rfl | rfl <;> decide +kernel

theorem hangs_of {cap : Nat → Nat} {st : State} {r s : Nat} {fs : List Flag}
    (h : ∀ st', Reachable cap st st' → st'.next r = some (.wait s fs) ∧ ∀ f ∈ fs, (s, f) ∉ st'.flags) : Hangs cap st r := by
  intro st' hr
  obtain ⟨h1, h2⟩ := h st' hr
  refine ⟨by rw [h1]; simp, ?_⟩
  cases hs : step cap st' r with
  | none => rfl
  | some st2 =>
    exfalso
    obtain ⟨e, todo, held, held', h3, -, -, -, h5⟩ := threads_cases hs
    simp only [State.next, h3, Option.bind_some, List.head?_cons, Option.some.injEq] at h1
    obtain ⟨f, hf, hf'⟩ := h5 s fs h1
    exact h2 f hf hf'

/-- C94, what is wrong, for all programs and executions: when the reader of a session waits for what only itself does later, it waits for
ever.  This is what `Read` on an empty queue and `SetPause(true)` do in a handler. -/
theorem C94_waits_for_itself {W : World} (hW : ∀ s c, UserCode (fun _ => true) (W.code s c)) {roles : List (Nat × Role)}
    {runs : List (List Ev)} (ht : Threads W roles runs) {cap : Nat → Nat} {st : State} (h : Reachable cap (start runs) st) {r s : Nat}
    (hr : roles[r]? = some (s, .reader)) {f : Flag} (hf : f = .readerDone ∨ f = .pauseStarted ∨ f = .item)
    (hn : st.next r = some (.wait s [f])) (hu : (s, f) ∉ st.flags) : Hangs cap st r := by
  have hf' : f = .readerDone ∨ f = .pauseStarted ∨ f = .item ∨ f = .stageRemote := by
    rcases hf with h | h | h
    · exact .inl h
    · exact .inr (.inl h)
    · exact .inr (.inr (.inl h))
  refine hangs_of fun st' hst => waits_forever hst hn (by simpa using hu) ?_
  intro j hj t hjt f' hf2
  rw [List.mem_singleton] at hf2
  subst hf2
  obtain ⟨run, hrun, done, hd⟩ := todo_suffix h j t hjt
  have := others_never hW (only_reader hf').1 (only_reader hf').2 ht hr hj hrun
  rw [hd, List.mem_append, not_or] at this
  exact this.2

/-- C94, the same for `WaitForClosure` and `CloseAndWait`: no assumption on the flag is needed. -/
theorem C94_closure_waits {W : World} (hW : ∀ s c, UserCode (fun _ => true) (W.code s c)) {roles : List (Nat × Role)}
    {runs : List (List Ev)} (ht : Threads W roles runs) {cap : Nat → Nat} {st : State} (h : Reachable cap (start runs) st) {r s : Nat}
    (hr : roles[r]? = some (s, .reader)) (hn : st.next r = some (.wait s [.readerDone])) : Hangs cap st r := by
  refine C94_waits_for_itself hW ht h hr (.inl rfl) hn ?_
  obtain ⟨hr1, hr2⟩ := List.getElem?_eq_some_iff.1 hr
  have hr3 : r < runs.length := by rw [← ht.length]; exact hr1
  have hrun := ht.run r hr1 hr3
  rw [hr2] at hrun
  obtain ⟨run', he, hnot⟩ := reader_ends hW hrun
  refine set_last h (run := run') (by rw [List.getElem?_eq_getElem hr3, he]) hnot ?_ (by rw [hn]; simp)
  intro j hj t hjt
  exact others_never hW (only_reader (.inl rfl)).1 (only_reader (.inl rfl)).2 ht hr hj hjt

theorem finalizer_behind {W : World} {s : Nat} {run : List Ev} (h : Run W s finalizer run) :
    Behind s .stageRemote .established run := by
  cases h with
  | seq h1 h =>
    cases h1
    refine behind_append (behind_of_never (by simp)) ?_
    cases h with
    | left h => cases h; exact behind_of_never (by simp)
    | right h =>
      cases h with
      | seq h2 h =>
        cases h2
        refine behind_append (behind_of_never (by simp)) ?_
        cases h with
        | left h => cases h; exact behind_of_never (by simp)
        | right h =>
          cases h with
          | seq h3 h =>
            cases h3
            refine behind_append (behind_of_never (by simp)) ?_
            cases h with
            | seq h4 h =>
              cases h4
              exact .inl rfl

/-- C94, a method that sends: as long as the end of the negotiation of the other side has not been received, a handler that sends waits
until the session is closed. -/
theorem C94_sending_waits {W : World} (hW : ∀ s c, UserCode (fun _ => true) (W.code s c)) {roles : List (Nat × Role)}
    {runs : List (List Ev)} (ht : Threads W roles runs) {cap : Nat → Nat} {st : State} (h : Reachable cap (start runs) st) {r s : Nat}
    (hr : roles[r]? = some (s, .reader)) (hn : st.next r = some (.wait s [.ctx, .established]))
    (h1 : (s, Flag.established) ∉ st.flags) (h2 : (s, Flag.stageRemote) ∉ st.flags) : HangsUntilClosed cap st r s := by
  intro st' hst
  have hm : ∀ m : Method, neverSets .established m.prog = true := fun m => by cases m <;> decide +kernel
  have hW' : ∀ s c, neverSets .established (W.code s c) = true := fun s c => neverSets_user hm (hW s c)
  have key := waits_until_closed hst (g := .stageRemote) (f := .established) (by simp) hn h2 h1 (by
    intro j hj t hjt
    obtain ⟨run, hrun, done, hd⟩ := todo_suffix h j t hjt
    refine ⟨?_, ?_⟩
    · have := others_never hW (only_reader (.inr (.inr (.inr rfl)))).1 (only_reader (.inr (.inr (.inr rfl)))).2 ht hr hj hrun
      rw [hd, List.mem_append, not_or] at this
      exact this.2
    · refine behind_reachable h h2 hrun ?_ hjt
      obtain ⟨hj', rfl⟩ := List.getElem?_eq_some_iff.1 hrun
      have hj1 : j < roles.length := by rw [ht.length]; exact hj'
      have hrj := ht.run j hj1 hj'
      have hmem : roles[j] ∈ roles := List.getElem_mem hj1
      have hget : roles[j]? = some roles[j] := List.getElem?_eq_getElem hj1
      generalize roles[j] = x at hrj hmem hget
      obtain ⟨s', ro⟩ := x
      by_cases hs : s' = s
      · subst hs
        cases ro with
        | reader =>
          have := ht.once _ hmem rfl
          have := count_two hget hr hj
          omega
        | finalizer => exact finalizer_behind hrj
        | user p => exact behind_of_never (never_run hW' hrj (neverSets_user hm (ht.user s' p hmem)) s')
        | _ => exact behind_of_never (never_run hW' hrj (by dsimp only; decide +kernel) s')
      · cases ro with
        | user p => exact behind_of_never (never_run hW' hrj (neverSets_user hm (ht.user s' p hmem)) s)
        | _ => exact behind_of_never fun hc => hs (own_run hW' hrj (by dsimp only; decide +kernel) s hc).symm)
  rcases key with key | ⟨key1, key2⟩
  · exact .inl key
  · refine .inr ⟨by rw [key1]; simp, ?_⟩
    cases hs : step cap st' r with
    | none => rfl
    | some st2 =>
      exfalso
      obtain ⟨e, todo, held, held', h3, -, -, -, h5⟩ := threads_cases hs
      simp only [State.next, h3, Option.bind_some, List.head?_cons, Option.some.injEq] at key1
      obtain ⟨f, hf, hf'⟩ := h5 s _ key1
      exact key2 f hf hf'

/-! ### Restriction that holds -/

/-- The methods that wait for nothing but that the session has keys and is established, or is closed, or for the end of the goroutines
of the negotiation. -/
def handlerSafe : Method → Bool
  | .closeAndWait | .waitForClosure | .setPause | .write | .read | .waitForState => false
  | _ => true

def harmless (fs : List Flag) : Bool := fs.contains .ctx && (fs.contains .established || fs.contains .keys) || fs == [.negTasks] || fs == [.started]

/-- C94 (restriction that holds): if the callbacks only use the methods `handlerSafe`, then the reader never waits for a session that has
keys and is established, or is closed, except for the goroutines of its negotiation.  Missing: the other methods, and sessions that are not
established; see `C94_violated` and `C94_violated_write`. -/
theorem C94_partial {W : World} (hW : ∀ s c, c ≠ .onConnect → UserCode handlerSafe (W.code s c)) {roles : List (Nat × Role)}
    {runs : List (List Ev)} (ht : Threads W roles runs) {cap : Nat → Nat} {st : State} (h : Reachable cap (start runs) st) {r s s' : Nat}
    (hr : roles[r]? = some (s, .reader)) {fs : List Flag} (hn : st.next r = some (.wait s' fs)) (hs : Ready st s') :
    step cap st r ≠ none ∨ fs = [.negTasks] ∨ fs = [.started] := by
  have hW' : ∀ s c, c ≠ .onConnect → allWaits harmless (W.code s c) = true := fun s c hc =>
    allWaits_user (fun m hm => by cases m <;> first | (exact absurd hm (by decide)) | decide +kernel) (hW s c hc)
  obtain ⟨hr1, hr2⟩ := List.getElem?_eq_some_iff.1 hr
  have hr3 : r < runs.length := by rw [← ht.length]; exact hr1
  have hrun := ht.run r hr1 hr3
  rw [hr2] at hrun
  obtain ⟨todo, held, h1, h2⟩ := next_thread hn
  obtain ⟨run, hrun', done, hd⟩ := todo_suffix h r _ h1
  rw [List.getElem?_eq_getElem hr3, Option.some.injEq] at hrun'
  have hok := waits_run hW' hrun (show allWaits harmless reader = true by decide +kernel) s' fs (by rw [hrun', hd]; simp)
  simp only [harmless, Bool.or_eq_true, Bool.and_eq_true, List.contains_eq_mem, decide_eq_true_eq, beq_iff_eq] at hok
  by_cases hneg : fs = [.negTasks] ∨ fs = [.started]
  · exact .inr hneg
  · left
    have hc : Flag.ctx ∈ fs ∧ (Flag.established ∈ fs ∨ Flag.keys ∈ fs) := by
      rcases hok with (h | h) | h
      · exact h
      · exact absurd (.inl h) hneg
      · exact absurd (.inr h) hneg
    obtain ⟨f, hf, hf'⟩ : ∃ f ∈ fs, (s', f) ∈ st.flags := by
      rcases hs with hs | ⟨hs1, hs2⟩
      · exact ⟨_, hc.1, hs⟩
      · rcases hc.2 with h | h
        · exact ⟨_, h, hs2⟩
        · exact ⟨_, h, hs1⟩
    intro hnone
    have he := step_next hn hnone
    simp only [exec] at he
    split at he
    · cases he
    · next hx =>
      apply hx
      simp only [List.any_eq_true, List.contains_eq_mem, decide_eq_true_eq]
      exact ⟨f, hf, hf'⟩

/-! ### Violation -/

/-- A world in which handlers call one method. -/
def handling (m : Method) : World := ⟨fun _ c => if c = .handle then m.prog else .skip, fun s => 1 - s⟩

theorem handling_code (m : Method) (s : Nat) (c : Callback) : UserCode (fun _ => true) ((handling m).code s c) := by
  simp only [handling]
  split
  · exact .method rfl
  · exact .skip

/-- What the method does in the handler, until it waits; what follows does not matter. -/
def inHandler : Method → List Ev
  | .waitForClosure => [.wait 0 [.readerDone]]
  | .closeAndWait => [.acq 0 .state true, .acc 0 .changeChan true, .set 0 .stateChange, .rel 0 .state true, .acq 0 .delayedBuf true,
      .acc 0 .delayedBuf true, .rel 0 .delayedBuf true, .set 0 .sent, .set 0 .ctx, .wait 0 [.readerDone]]
  | .setPause => [.acq 0 .pause true, .acq 0 .sess true, .acc 0 .pauseStart true, .acq 0 .state true, .acc 0 .changeChan true,
      .set 0 .stateChange, .rel 0 .state true, .rel 0 .sess true, .acc 0 .pauseStart false, .rel 0 .pause true, .wait 0 [.pauseStarted]]
  | .read => [.acc 0 .readChans false, .wait 0 [.item]]
  | .write => [.wait 0 [.ctx, .established], .put 0, .set 0 .sent, .wait 0 [.sent, .ctx]]
  | _ => []

/-- Keys are exchanged, the negotiation ends (if `control`), then a message arrives. -/
def messageRun (m : Method) (control : List Ev) : List Ev :=
  handleRun [.set 0 .answering] ++ handleRun successRun ++ control ++ [.take 1, .acc 0 .messengers false] ++ inHandler m

def handlerScenario (m : Method) (control : List Ev) : List ((Nat × Role) × List Ev) :=
  [((0, .user startSession), startRun),
   ((1, .user (.loop Calls.writeSingle)), [.put 1, .put 1, .put 1, .put 1]),
   ((0, .reader), readerRun (messageRun m control)),
   ((0, .kxLoop), kxLoopRun),
   ((0, .kxAnswer), answerRun),
   ((0, .pingSender), pingRun),
   ((0, .finalizer), finalizerRun)]

theorem threads_handler {m : Method} {control : List Ev}
    (h : (handlerScenario m control).all (fun x => isRun (handling m) x.1.1 x.1.2.prog x.2) = true) :
    Threads (handling m) ((handlerScenario m control).map (·.1)) ((handlerScenario m control).map (·.2)) := by
  refine threads_of (by simp) ?_ ?_
    (show ∀ r ∈ (handlerScenario .read []).map (·.1), r.2.single = true → ((handlerScenario .read []).map (·.1)).count r = 1 by
      decide +kernel)
  · rw [List.zip_map']
    simpa using h
  · intro x hx p hp
    simp only [handlerScenario, List.map_cons, List.map_nil, List.mem_cons, List.not_mem_nil, or_false] at hx
    rcases hx with rfl | rfl | rfl | rfl | rfl | rfl | rfl <;> cases hp
    · exact .method (m := .start) rfl
    · exact .loop (.method (m := .writeSingle) rfl)

/-- The flag for which the method waits. -/
def waitsFor : Method → Flag
  | .setPause => .pauseStarted
  | .read => .item
  | _ => .readerDone

/-- All goroutines do what they have to do until the session is established, then the reader goes on to where it waits. -/
def toWait (m : Method) : List Nat :=
  sched [(0, 6), (1, 4), (2, 10), (3, 23), (4, 19), (2, 25), (5, 3), (6, 9), (2, 1 + (inHandler m).length)]

/-- C94, violation: each of these methods, called in a handler of an established session, never returns, and the session never receives
anything again. -/
theorem C94_violated (m : Method) (hm : m ∈ [Method.waitForClosure, .closeAndWait, .setPause, .read]) :
    ∃ roles runs cap st, Threads (handling m) roles runs ∧ Reachable cap (start runs) st ∧ roles[2]? = some (0, .reader) ∧
      (0, Flag.established) ∈ st.flags ∧ st.next 2 = some (.wait 0 [waitsFor m]) ∧ Hangs cap st 2 := by
  have key : (handlerScenario m controlRun).all (fun x => isRun (handling m) x.1.1 x.1.2.prog x.2) = true ∧
      (match runSched (fun _ => 4) (start ((handlerScenario m controlRun).map (·.2))) (toWait m) with
        | some st => decide (st.next 2 = some (.wait 0 [waitsFor m])) && decide ((0, waitsFor m) ∉ st.flags) &&
            decide ((0, Flag.established) ∈ st.flags)
        | none => false) = true := by
    cases m with
    | waitForClosure | closeAndWait | setPause | read => exact ⟨by decide +kernel, by decide +kernel⟩
    | _ => exact absurd hm (by decide)
  obtain ⟨h1, h2⟩ := key
  split at h2
  · next st hs =>
    simp only [Bool.and_eq_true, decide_eq_true_eq] at h2
    have hr := reachable_sched _ .init hs
    refine ⟨_, _, _, st, threads_handler h1, hr, rfl, h2.2, h2.1.1, ?_⟩
    refine C94_waits_for_itself (handling_code m) (threads_handler h1) hr (r := 2) rfl ?_ h2.1.1 h2.1.2
    cases m with
    | waitForClosure | closeAndWait => exact .inl rfl
    | setPause => exact .inr (.inl rfl)
    | read => exact .inr (.inr rfl)
    | _ => exact absurd hm (by decide)
  · cases h2

/-- C94, violation by a handler that answers: the message arrives before the end of the negotiation of the other side (the packet was
lost, or is late), and then the end of the negotiation is never read. -/
theorem C94_violated_write :
    ∃ roles runs cap st, Threads (handling .write) roles runs ∧ Reachable cap (start runs) st ∧ roles[2]? = some (0, .reader) ∧
      (0, Flag.ctx) ∉ st.flags ∧ st.next 2 = some (.wait 0 [.ctx, .established]) ∧ HangsUntilClosed cap st 2 0 := by
  have h1 : (handlerScenario .write []).all (fun x => isRun (handling .write) x.1.1 x.1.2.prog x.2) = true := by decide +kernel
  have h2 : (match runSched (fun _ => 4) (start ((handlerScenario .write []).map (·.2)))
      (sched [(0, 6), (1, 4), (2, 10), (3, 23), (4, 19), (2, 19), (5, 3), (2, 2)]) with
        | some st => decide (st.next 2 = some (.wait 0 [.ctx, .established])) && decide ((0, Flag.established) ∉ st.flags) &&
            decide ((0, Flag.stageRemote) ∉ st.flags) && decide ((0, Flag.ctx) ∉ st.flags)
        | none => false) = true := by decide +kernel
  split at h2
  · next st hs =>
    simp only [Bool.and_eq_true, decide_eq_true_eq] at h2
    have hr := reachable_sched _ .init hs
    exact ⟨_, _, _, st, threads_handler h1, hr, rfl, h2.2, h2.1.1.1,
      C94_sending_waits (handling_code .write) (threads_handler h1) hr (r := 2) rfl h2.1.1.1 h2.1.1.2 h2.1.2⟩
  · cases h2

/-- What the reader does for the method. -/
def readerDoes : Method → List Ev
  | .setPause => [.acq 0 .pause true, .acc 0 .pauseStart false, .set 0 .pauseStarted, .acc 0 .pauseStart true, .rel 0 .pause true,
      .acq 0 .deadline true, .acc 0 .interrupts true, .rel 0 .deadline true]
  | .read => [.take 1, .acc 0 .messengers false, .acq 0 .sess false, .acc 0 .readChans false, .rel 0 .sess false, .set 0 .item]
  | _ => []

/-- The method is called in a goroutine of its own. -/
def outsideScenario (m : Method) : List ((Nat × Role) × List Ev) :=
  [((0, .user startSession), startRun),
   ((1, .user (.loop Calls.writeSingle)), [.put 1, .put 1, .put 1, .put 1]),
   ((0, .reader), readerRun (handleRun [.set 0 .answering] ++ handleRun successRun ++ controlRun ++ readerDoes m)),
   ((0, .kxLoop), kxLoopRun),
   ((0, .kxAnswer), answerRun),
   ((0, .pingSender), pingRun),
   ((0, .finalizer), finalizerRun),
   ((0, .user m.prog), inHandler m)]

/-- Two schedules after each other, with checks of the states. -/
def twice (cap : Nat → Nat) (init : State) (l1 l2 : List Nat) (P Q : State → Bool) : Bool :=
  match runSched cap init l1 with
  | some st => P st && match runSched cap st l2 with
    | some st' => Q st'
    | none => false
  | none => false

theorem twice_spec {cap : Nat → Nat} {init : State} {l1 l2 : List Nat} {P Q : State → Bool} (h : twice cap init l1 l2 P Q = true) :
    ∃ st st', Reachable cap init st ∧ Reachable cap st st' ∧ P st = true ∧ Q st' = true := by
  unfold twice at h
  split at h
  · next st hs =>
    rw [Bool.and_eq_true] at h
    obtain ⟨h1, h2⟩ := h
    split at h2
    · next st' hs' => exact ⟨st, st', reachable_sched _ .init hs, reachable_sched _ .init hs', h1, h2⟩
    · cases h2
  · cases h

theorem threads_outside (m : Method) (hm : m ∈ [Method.waitForClosure, .closeAndWait, .setPause, .read]) :
    Threads plain ((outsideScenario m).map (·.1)) ((outsideScenario m).map (·.2)) := by
  refine threads_of (by simp) ?_ ?_ ?_
  · rw [List.zip_map']
    have : (outsideScenario m).all (fun x => isRun plain x.1.1 x.1.2.prog x.2) = true := by
      cases m with
      | waitForClosure | closeAndWait | setPause | read => decide +kernel
      | _ => exact absurd hm (by decide)
    simpa using this
  · intro x hx p hp
    simp only [outsideScenario, List.map_cons, List.map_nil, List.mem_cons, List.not_mem_nil, or_false] at hx
    rcases hx with rfl | rfl | rfl | rfl | rfl | rfl | rfl | rfl <;> cases hp
    · exact .method (m := .start) rfl
    · exact .loop (.method (m := .writeSingle) rfl)
    · exact .method rfl
  · cases m with
    | waitForClosure | closeAndWait | setPause | read => decide +kernel
    | _ => exact absurd hm (by decide)

/-- C94, it is the handler that matters: called in another goroutine of the user, each of the four methods can wait (in `st`) and then
return (in `st'`). -/
theorem C94_outside (m : Method) (hm : m ∈ [Method.waitForClosure, .closeAndWait, .setPause, .read]) :
    ∃ roles runs cap st st', Threads plain roles runs ∧ Reachable cap (start runs) st ∧ Reachable cap st st' ∧
      roles[7]? = some (0, .user m.prog) ∧ (0, Flag.established) ∈ st.flags ∧
      st.next 7 = some (.wait 0 [waitsFor m]) ∧ step cap st 7 = none ∧ st'.threads[7]? = some ⟨[], []⟩ := by
  have key : twice (fun _ => 4) (start ((outsideScenario m).map (·.2)))
      (sched [(0, 6), (1, 4), (2, 10), (3, 23), (4, 19), (2, 25), (5, 3), (6, 9), (7, (inHandler m).length - 1)])
      (sched [(2, (readerDoes m).length + if waitsFor m = .readerDone then 12 else 0), (7, 1)])
      (fun st => decide (st.next 7 = some (.wait 0 [waitsFor m])) && decide (step (fun _ => 4) st 7 = none) &&
        decide ((0, Flag.established) ∈ st.flags))
      (fun st' => decide (st'.threads[7]? = some ⟨[], []⟩)) = true := by
    cases m with
    | waitForClosure | closeAndWait | setPause | read => decide +kernel
    | _ => exact absurd hm (by decide)
  obtain ⟨st, st', h1, h2, h3, h4⟩ := twice_spec key
  simp only [Bool.and_eq_true, decide_eq_true_eq] at h3 h4
  exact ⟨_, _, _, st, st', threads_outside m hm, h1, h2, by simp [outsideScenario], h3.2, h3.1.1, h3.1.2, h4⟩

/-! ## C95 -/

/-- C95, what is wrong, for all programs and executions: when the readers of two connected sessions both want to write (their handlers
answer) and both pipes are full, none of the two ever goes on. -/
theorem C95_both_full {W : World} (hW : ∀ s c, UserCode (fun _ => true) (W.code s c)) {roles : List (Nat × Role)}
    {runs : List (List Ev)} (ht : Threads W roles runs) {cap : Nat → Nat} {st : State} (h : Reachable cap (start runs) st) {r1 r2 a b : Nat}
    (ha : ∀ s, W.peer s = a ↔ s = b) (hb : ∀ s, W.peer s = b ↔ s = a)
    (hr1 : roles[r1]? = some (a, .reader)) (hr2 : roles[r2]? = some (b, .reader))
    (h1 : st.next r1 = some (.put a)) (h2 : st.next r2 = some (.put b))
    (hfa : cap a ≤ st.packets.count a) (hfb : cap b ≤ st.packets.count b) : Hangs cap st r1 ∧ Hangs cap st r2 := by
  have key := fun st' (hst : Reachable cap st st') => both_full hst h1 h2 hfa hfb (by
    intro j hj1 hj2 t hjt
    obtain ⟨run, hrun, done, hd⟩ := todo_suffix h j t hjt
    have g1 := others_take hW ht (fun s => (ha s).1) hr2 hj2 hrun
    have g2 := others_take hW ht (fun s => (hb s).1) hr1 hj1 hrun
    rw [hd, List.mem_append, not_or] at g1 g2
    exact ⟨g1.2, g2.2⟩)
  have blocked : ∀ {st' : State} {r p : Nat}, st'.next r = some (.put p) → cap p ≤ st'.packets.count p →
      st'.next r ≠ none ∧ step cap st' r = none := by
    intro st' r p hn hc
    refine ⟨by rw [hn]; simp, ?_⟩
    cases hs : step cap st' r with
    | none => rfl
    | some st2 =>
      exfalso
      rcases step_packets hs hn with ⟨q, he, hlt, -⟩ | ⟨q, he, -⟩ | ⟨hne, -⟩
      · cases he; omega
      · cases he
      · exact hne p rfl
  exact ⟨fun st' hst => blocked (key st' hst).1.1 (key st' hst).1.2, fun st' hst => blocked (key st' hst).2.1 (key st' hst).2.2⟩

theorem puts_reachable {cap : Nat → Nat} {init st : State} (h : Reachable cap init st) (p : Nat) :
    st.packets.count p + st.puts p ≤ init.packets.count p + init.puts p := by
  induction h with
  | init => exact Nat.le_refl _
  | step _ hs ih => exact Nat.le_trans (puts_step hs p) ih

theorem puts_pos {st : State} {i p : Nat} (hn : st.next i = some (.put p)) : 0 < st.puts p := by
  obtain ⟨todo, held, h1, -⟩ := next_thread hn
  have := sum_set (fun t : Thread => t.todo.count (.put p)) h1 ⟨todo, held⟩
  simp only [List.count_cons_self] at this
  unfold State.puts
  omega

/-- C95 (restriction that holds): nobody ever waits for room in a pipe, as long as all that is ever written into it fits at once.  Missing:
more than that, see `C95_violated`. -/
theorem C95_partial {runs : List (List Ev)} {cap : Nat → Nat} {p : Nat} (hp : (runs.map (·.count (Ev.put p))).sum ≤ cap p) {st : State}
    (h : Reachable cap (start runs) st) {i : Nat} (hn : st.next i = some (.put p)) : step cap st i ≠ none := by
  have h1 := puts_reachable h p
  have h2 : (start runs).puts p = (runs.map (·.count (Ev.put p))).sum := by
    simp only [State.puts, start, List.map_map]
    rfl
  have h3 := puts_pos hn
  have h4 : (start runs).packets.count p = 0 := rfl
  intro hnone
  have he := step_next hn hnone
  simp only [exec] at he
  split at he
  · cases he
  · omega

/-! ### Violation -/

/-- The sessions 0 and 1 are connected; their handlers send one message. -/
def echo : World := ⟨fun _ c => if c = .handle then Calls.writeSingle else .skip, fun s => if s = 0 then 1 else if s = 1 then 0 else s⟩

theorem echo_code (s : Nat) (c : Callback) : UserCode (fun _ => true) (echo.code s c) := by
  simp only [echo]
  split
  · exact .method (m := .writeSingle) rfl
  · exact .skip

def startOf (s : Nat) : List Ev :=
  [.acq s .sess true, .rel s .sess true, .acq s .state true, .rel s .state true, .set s .kxStarted, .set s .started]

/-- The reader: a message, which the handler answers. -/
def echoRun (s : Nat) : List Ev :=
  [.wait s [.started], .take (1 - s), .acc s .messengers false, .put s, .acq s .state true, .rel s .state true, .set s .ctx,
    .acc s .messengers false, .acc s .readChans false, .set s .item, .acq s .state true, .rel s .state true, .acq s .deadline true,
    .acc s .interrupts true, .rel s .deadline true, .set s .readerDone]

def echoRoles : List (Nat × Role) :=
  [(0, .user startSession), (1, .user startSession), (0, .reader), (1, .reader), (0, .user (.loop Calls.writeSingle)),
    (1, .user (.loop Calls.writeSingle))]

def echoRuns (n : Nat) : List (List Ev) :=
  [startOf 0, startOf 1, echoRun 0, echoRun 1, List.replicate n (.put 0), List.replicate n (.put 1)]

theorem writes_run (W : World) (s : Nat) : ∀ n, Run W s (.loop Calls.writeSingle) (List.replicate n (.put s))
  | 0 => .stop
  | n + 1 => .again (t := [.put s]) (isRun_writeSingle W s) (writes_run W s n)
where
  isRun_writeSingle (W : World) (s : Nat) : Run W s Calls.writeSingle [.put s] := by
    have h : Run W s Calls.writeSingle ([] ++ (([] ++ []) ++ [.put s])) :=
      .seq (.left .skip) (.seq (.seq (.left .skip) (.left .skip)) (.right .send))
    exact h

theorem threads_echo (n : Nat) : Threads echo echoRoles (echoRuns n) := by
  refine ⟨rfl, ?_, ?_, by decide +kernel⟩
  · intro i h1 h2
    have hi : i < 6 := h1
    match i, hi with
    | 0, _ => exact isRun_run (show isRun echo 0 startSession (startOf 0) = true by decide +kernel)
    | 1, _ => exact isRun_run (show isRun echo 1 startSession (startOf 1) = true by decide +kernel)
    | 2, _ => exact isRun_run (show isRun echo 0 Calls.reader (echoRun 0) = true by decide +kernel)
    | 3, _ => exact isRun_run (show isRun echo 1 Calls.reader (echoRun 1) = true by decide +kernel)
    | 4, _ => exact writes_run _ 0 n
    | 5, _ => exact writes_run _ 1 n
  · intro s p h
    simp only [echoRoles, List.mem_cons, Prod.mk.injEq, Role.user.injEq, reduceCtorEq, and_false, List.not_mem_nil, or_false, false_or] at h
    rcases h with ⟨-, rfl⟩ | ⟨-, rfl⟩ | ⟨-, rfl⟩ | ⟨-, rfl⟩
    · exact .method (m := .start) rfl
    · exact .method (m := .start) rfl
    · exact .loop (.method (m := .writeSingle) rfl)
    · exact .loop (.method (m := .writeSingle) rfl)

/-- Both sides are started and send a message, the readers take them and are about to answer. -/
theorem echo_prefix (c : Nat) (l0 l1 : List Ev) :
    runSched (fun _ => c + 1) (start [startOf 0, startOf 1, echoRun 0, echoRun 1, .put 0 :: l0, .put 1 :: l1])
      [0, 0, 0, 0, 0, 0, 1, 1, 1, 1, 1, 1, 4, 5, 2, 2, 2, 3, 3, 3] =
    some ⟨[⟨[], []⟩, ⟨[], []⟩, ⟨(echoRun 0).drop 3, []⟩, ⟨(echoRun 1).drop 3, []⟩, ⟨l0, []⟩, ⟨l1, []⟩],
      [(1, .started), (1, .kxStarted), (0, .started), (0, .kxStarted)], []⟩ := by
  simp [runSched, start, startOf, echoRun, step, exec, State.locked]

/-- C95, violation, for every capacity: two sessions with handlers that send one message for each message they get.  If both sides send
one message more than fits into a pipe at once, both readers can block for ever.  (The steps that establish the sessions are left out, they
only come before.) -/
theorem C95_violated (c : Nat) :
    ∃ st, Reachable (fun _ => c + 1) (start (echoRuns (c + 2))) st ∧ Hangs (fun _ => c + 1) st 2 ∧ Hangs (fun _ => c + 1) st 3 := by
  have hs1 := echo_prefix c (List.replicate (c + 1) (.put 0)) (List.replicate (c + 1) (.put 1))
  generalize hst : State.mk _ _ _ = st1 at hs1
  have h4 : st1.threads[4]? = some ⟨List.replicate (c + 1) (.put 0) ++ [], []⟩ := by rw [← hst, List.append_nil]; rfl
  have h5 : st1.threads[5]? = some ⟨List.replicate (c + 1) (.put 1) ++ [], []⟩ := by rw [← hst, List.append_nil]; rfl
  have hp : st1.packets = [] := by rw [← hst]
  obtain ⟨st2, hr2, ht2, hp2⟩ := fill (cap := fun _ => c + 1) (c + 1) h4 (by rw [hp]; simp)
  rw [hp, List.append_nil] at hp2
  obtain ⟨st3, hr3, ht3, hp3⟩ := fill (cap := fun _ => c + 1) (c + 1) (st := st2) (i := 5) (p := 1) (rest := []) (held := [])
    (by rw [ht2]; simpa using h5) (by rw [hp2]; simp [List.count_replicate])
  have hreach : Reachable (fun _ => c + 1) (start (echoRuns (c + 2))) st3 :=
    reachable_trans (reachable_sched _ .init hs1) (reachable_trans hr2 hr3)
  have hnext : ∀ r, r ≠ 4 → r ≠ 5 → st3.next r = st1.next r := by
    intro r h4 h5
    unfold State.next
    rw [ht3, ht2, List.getElem?_set_ne (Ne.symm h5), List.getElem?_set_ne (Ne.symm h4)]
  refine ⟨st3, hreach, C95_both_full (a := 0) (b := 1) echo_code (threads_echo (c + 2)) hreach ?_ ?_ rfl rfl ?_ ?_ ?_ ?_⟩
  · intro s
    simp only [echo]
    split
    · omega
    · split <;> omega
  · intro s
    simp only [echo]
    split
    · omega
    · split <;> omega
  · rw [hnext 2 (by decide) (by decide), ← hst]; rfl
  · rw [hnext 3 (by decide) (by decide), ← hst]; rfl
  · rw [hp3, hp2]; simp [List.count_replicate]
  · rw [hp3, hp2]; simp [List.count_replicate]

/-! ### Examples -/

/-- A handler sends in a session that is just being closed. -/
def closedScenario : List ((Nat × Role) × List Ev) :=
  [((0, .user startSession), startOf 0),
   ((1, .user Calls.writeSingle), [.put 1]),
   ((0, .reader), readerRun [.take 1, .acc 0 .messengers false, .wait 0 [.ctx, .established]]),
   ((0, .closeTimer), [.set 0 .ctx])]

/-- The hypotheses of `C94_partial`: the reader waits, the session is closed. -/
example : (∀ s c, c ≠ .onConnect → UserCode handlerSafe (echo.code s c)) ∧
    Threads echo (closedScenario.map (·.1)) (closedScenario.map (·.2)) ∧
    ∃ st, Reachable (fun _ => 1) (start (closedScenario.map (·.2))) st ∧ st.next 2 = some (.wait 0 [.ctx, .established]) ∧ Ready st 0 := by
  refine ⟨?_, threads_of rfl (by decide +kernel) ?_ (by decide +kernel), ?_⟩
  · intro s c _
    simp only [echo]
    split
    · exact .method (m := .writeSingle) rfl
    · exact .skip
  · intro x hx p hp
    simp only [closedScenario, List.map_cons, List.map_nil, List.mem_cons, List.not_mem_nil, or_false] at hx
    rcases hx with rfl | rfl | rfl | rfl <;> cases hp
    · exact .method (m := .start) rfl
    · exact .method (m := .writeSingle) rfl
  · have h2 : (match runSched (fun _ => 1) (start (closedScenario.map (·.2))) (sched [(0, 6), (1, 1), (2, 3), (3, 1)]) with
        | some st => decide (st.next 2 = some (.wait 0 [.ctx, .established])) && decide ((0, Flag.ctx) ∈ st.flags)
        | none => false) = true := by decide +kernel
    split at h2
    · next st hs =>
      simp only [Bool.and_eq_true, decide_eq_true_eq] at h2
      exact ⟨st, reachable_sched _ .init hs, h2.1, .inl h2.2⟩
    · cases h2

/-- A session gets keys, is established, and then a handler sends. -/
def sendingScenario : List ((Nat × Role) × List Ev) :=
  [((0, .user startSession), startRun),
   ((1, .user (.loop Calls.writeSingle)), [.put 1, .put 1, .put 1, .put 1]),
   ((0, .reader), readerRun (handleRun [.acq 0 .sess true, .acc 0 .secrets true, .set 0 .keys, .rel 0 .sess true, .set 0 .answering] ++
      handleRun successRun ++ controlRun ++ [.take 1, .acc 0 .messengers false, .wait 0 [.keys, .ctx], .wait 0 [.ctx, .established], .put 0])),
   ((0, .pingSender), pingRun),
   ((0, .finalizer), finalizerRun)]

/-- The same for a session that is not closed: the reader comes to where the handler waits, and then to the end of its run. -/
example : Threads echo (sendingScenario.map (·.1)) (sendingScenario.map (·.2)) ∧
    ∃ st st', Reachable (fun _ => 4) (start (sendingScenario.map (·.2))) st ∧ st.next 2 = some (.wait 0 [.keys, .ctx]) ∧ Ready st 0 ∧
      (0, Flag.ctx) ∉ st.flags ∧ Reachable (fun _ => 4) st st' ∧ st'.next 2 = none := by
  refine ⟨threads_of rfl (by decide +kernel) ?_ (by decide +kernel), ?_⟩
  · intro x hx p hp
    simp only [sendingScenario, List.map_cons, List.map_nil, List.mem_cons, List.not_mem_nil, or_false] at hx
    rcases hx with rfl | rfl | rfl | rfl | rfl <;> cases hp
    · exact .method (m := .start) rfl
    · exact .loop (.method (m := .writeSingle) rfl)
  · have key : twice (fun _ => 4) (start (sendingScenario.map (·.2))) (sched [(0, 6), (1, 4), (2, 39), (3, 3), (4, 9), (2, 2)]) (sched [(2, 15)])
        (fun st => decide (st.next 2 = some (.wait 0 [.keys, .ctx])) && decide ((0, Flag.keys) ∈ st.flags) &&
          decide ((0, Flag.established) ∈ st.flags) && decide ((0, Flag.ctx) ∉ st.flags))
        (fun st' => decide (st'.next 2 = none)) = true := by decide +kernel
    obtain ⟨st, st', h1, h2, h3, h4⟩ := twice_spec key
    simp only [Bool.and_eq_true, decide_eq_true_eq] at h3 h4
    exact ⟨st, st', h1, h3.1.1.1, .inr ⟨h3.1.1.2, h3.1.2⟩, h3.2, h2, h4⟩

/-- The hypothesis of `C95_partial`: each side sends one message and gets one, which it answers. -/
example : ((echoRuns 1).map (·.count (Ev.put 0))).sum ≤ 2 ∧ ∃ st, Reachable (fun _ => 2) (start (echoRuns 1)) st ∧ st.next 2 = some (.put 0) :=
  ⟨by decide +kernel, _, reachable_sched _ .init (echo_prefix 1 [] []), rfl⟩

#print axioms C94_waits_for_itself
#print axioms C94_closure_waits
#print axioms C94_sending_waits
#print axioms C94_partial
#print axioms C94_violated
#print axioms C94_violated_write
#print axioms C94_outside
#print axioms C95_both_full
#print axioms C95_partial
#print axioms C95_violated

end Verif.Sync
