import Verif.Lemmas.Sync
import Verif.Lemmas.Runs
/-!
# Locks: C92, C93
-/
namespace Verif.Sync
open Calls

/-- The methods that never take `sess.locker` or a lock that is taken before it.  (`SetPause`, `Start`, `NewMessenger`,
`SetHandlerFuncs` and `GetRemoteIdentity` do.) -/
def lockSafe : Method → Bool
  | .start | .setPause | .unsetPause | .newMessenger | .remoteIdentity => false
  | _ => true

theorem ordered_user {allowed : Method → Bool} {n : Nat} (hm : ∀ m, allowed m = true → ordered n m.prog = true) {p : Prog}
    (h : UserCode allowed p) : ordered n p = true := by
  induction h with
  | skip => rfl
  | seq _ _ ih1 ih2 | alt _ _ ih1 ih2 => simp only [ordered, ih1, ih2, Bool.and_self]
  | loop _ ih | on _ ih => simp only [ordered, ih]
  | method h => exact hm _ h

theorem ordered_method (m : Method) : ordered 0 m.prog = true := by cases m <;> decide +kernel

theorem ordered_role (r : Role) (h : ∀ p, r = .user p → UserCode (fun _ => true) p) : ordered 0 r.prog = true := by
  cases r with
  | user p => exact ordered_user (fun m _ => ordered_method m) (h p rfl)
  | _ => decide +kernel

/-- The callbacks only use the methods of sessions; `Error` and the `Close` of a handler, which are called while locks are held, only
the methods `allowed`. -/
structure Callbacks (allowed : Method → Bool) (W : World) : Prop where
  handle : ∀ s, UserCode (fun _ => true) (W.code s .handle)
  onConnect : ∀ s, UserCode (fun _ => true) (W.code s .onConnect)
  error : ∀ s, UserCode allowed (W.code s .error)
  handlerClose : ∀ s, UserCode allowed (W.code s .handlerClose)

theorem good_reachable {allowed : Method → Bool} (ha : ∀ m, allowed m = true → lockSafe m = true) {W : World}
    (hW : Callbacks allowed W) {roles : List (Nat × Role)} {runs : List (List Ev)} (ht : Threads W roles runs) {cap : Nat → Nat}
    {st : State} (h : Reachable cap (start runs) st) : ∀ t ∈ st.threads, Good t.held t.todo := by
  have h4 : ∀ m, allowed m = true → ordered 4 m.prog = true := by
    intro m hm
    have := ha m hm
    cases m <;> first | decide +kernel | cases this
  have hO : Ordered W := ⟨fun s => ordered_user (fun m _ => ordered_method m) (hW.handle s),
    fun s => ordered_user (fun m _ => ordered_method m) (hW.onConnect s),
    fun s => ordered_user h4 (hW.error s), fun s => ordered_user h4 (hW.handlerClose s)⟩
  refine forall_threads Good ?_ (fun _ _ _ _ _ _ h hg => good_step h hg) h
  intro t hm
  obtain ⟨run, hr, rfl⟩ := List.mem_map.1 hm
  obtain ⟨i, hi, rfl⟩ := List.getElem_of_mem hr
  have hi' : i < roles.length := by rw [ht.length]; exact hi
  have := good_run hO (ht.run i hi' hi) 0 [] [] (ordered_role _ fun p hp => ht.user roles[i].1 p (by
    rw [← hp]; exact List.getElem_mem hi')) (by simp) rfl
  simpa using this

/-- C92 (restriction that holds): whatever methods of whatever sessions any number of goroutines and the callbacks call, together with
the goroutines of the sessions, nobody ever waits for locks in a circle, if `Error` and the `Close` of handlers keep off the methods
that take `sess.locker`.  Handlers and `OnConnect` may call every method.  Missing: the other methods, see `C92_violated`. -/
theorem C92_partial {W : World} (hW : Callbacks lockSafe W) {roles : List (Nat × Role)} {runs : List (List Ev)}
    (ht : Threads W roles runs) {cap : Nat → Nat} {st : State} (h : Reachable cap (start runs) st) : ¬ Circle st :=
  no_circle (good_reachable (fun _ h => h) hW ht h)

/-- The goroutine waits for something that is not a lock. -/
def Waiting (st : State) (i : Nat) : Prop :=
  (∃ s fs, st.next i = some (.wait s fs)) ∨ (∃ p, st.next i = some (.put p)) ∨ ∃ p, st.next i = some (.take p)

theorem step_next {cap : Nat → Nat} {st : State} {i : Nat} {e : Ev} (hn : st.next i = some e) (h : step cap st i = none) :
    exec cap st (st.holds i) e = none := by
  obtain ⟨todo, held, h1, h2⟩ := next_thread hn
  unfold step at h
  rw [h1] at h
  simp only at h
  split at h
  · cases h
  · next he => rw [h2]; exact he

theorem waits_somebody {cap : Nat → Nat} {st : State} (hg : ∀ t ∈ st.threads, Good t.held t.todo) {i s : Nat} {l : LockName} {w : Bool}
    (hn : st.next i = some (.acq s l w)) (h : step cap st i = none) : ∃ j, WaitsFor st i j ∧ st.next j ≠ none := by
  have he := step_next hn h
  have holder : ∀ t ∈ st.threads, ∀ w', (s, l, w') ∈ t.held → (w = true ∨ w' = true) → ∃ j, WaitsFor st i j ∧ st.next j ≠ none := by
    intro t ht w' hm hww
    obtain ⟨j, hj, hjt⟩ := List.getElem_of_mem ht
    have hj' : st.threads[j]? = some t := by rw [← hjt]; exact List.getElem?_eq_getElem hj
    refine ⟨j, ⟨s, l, w, hn, .inl ⟨w', mem_holds.2 ⟨t, hj', hm⟩, hww⟩⟩, ?_⟩
    have := hg t ht
    intro hc
    simp only [State.next, hj', Option.bind_some, List.head?_eq_none_iff] at hc
    rw [hc] at this
    rw [Good] at this
    rw [this] at hm
    cases hm
  cases w with
  | true =>
    simp only [exec] at he
    split at he
    · next hl =>
      simp only [State.locked, List.any_eq_true, Bool.and_eq_true, beq_iff_eq] at hl
      obtain ⟨t, ht, ⟨s', l', w'⟩, hm, rfl, rfl⟩ := hl
      exact holder t ht w' hm (.inl rfl)
    · cases he
  | false =>
    simp only [exec] at he
    split at he
    · next hl =>
      rw [Bool.or_eq_true] at hl
      rcases hl with hl | hl
      · simp only [State.lockedForWriting, List.any_eq_true, Bool.and_eq_true, beq_iff_eq] at hl
        obtain ⟨t, ht, ⟨s', l', w'⟩, hm, ⟨rfl, rfl⟩, rfl⟩ := hl
        exact holder t ht true hm (.inr rfl)
      · simp only [State.writerWaits, List.any_eq_true, beq_iff_eq] at hl
        obtain ⟨t, ht, hh⟩ := hl
        obtain ⟨j, hj, hjt⟩ := List.getElem_of_mem ht
        have hj' : st.threads[j]? = some t := by rw [← hjt]; exact List.getElem?_eq_getElem hj
        have : st.next j = some (.acq s l true) := by simp [State.next, hj', hh]
        exact ⟨j, ⟨s, l, false, hn, .inr ⟨rfl, this⟩⟩, by rw [this]; simp⟩
    · cases he

/-- C92, what this means: behind every goroutine that waits for a lock there is one that can go on, or that waits for something else than
a lock (a packet, room in a pipe, a channel). -/
theorem C92_progress_partial {W : World} (hW : Callbacks lockSafe W) {roles : List (Nat × Role)} {runs : List (List Ev)}
    (ht : Threads W roles runs) {cap : Nat → Nat} {st : State} (h : Reachable cap (start runs) st) (i s : Nat) (l : LockName) (w : Bool)
    (hn : st.next i = some (.acq s l w)) (hs : step cap st i = none) :
    ∃ j, Relation.TransGen (WaitsFor st) i j ∧ (step cap st j ≠ none ∨ Waiting st j) := by
  have hg := good_reachable (fun _ h => h) hW ht h
  generalize hk : 200 - level st i = k
  induction k using Nat.strongRecOn generalizing i s l w with
  | ind k ih =>
    obtain ⟨j, h1, h2⟩ := waits_somebody hg hn hs
    have hl := waits_level hg h1
    cases hj : step cap st j with
    | some st' => exact ⟨j, .single h1, .inl (by simp [hj])⟩
    | none =>
      cases hnj : st.next j with
      | none => exact absurd hnj h2
      | some e =>
        have he := step_next hnj hj
        cases e with
        | acq s' l' w' =>
          have h100 : level st i < 100 := by
            have := rank_le l
            simp only [level, hn]
            split <;> omega
          obtain ⟨j', h3, h4⟩ := ih _ (by omega) j s' l' w' hnj hj rfl
          exact ⟨j', .trans (.single h1) h3, h4⟩
        | rel | acc | set => simp [exec] at he
        | wait s fs => exact ⟨j, .single h1, .inr (.inl ⟨_, _, hnj⟩)⟩
        | put p => exact ⟨j, .single h1, .inr (.inr (.inl ⟨_, hnj⟩))⟩
        | take p => exact ⟨j, .single h1, .inr (.inr (.inr ⟨_, hnj⟩))⟩

/-! ### Violation -/

/-- A goroutine that waits for itself. -/
def selfCircle (st : State) (i : Nat) : Bool :=
  match st.next i with
  | some (.acq s l _) => (st.holds i).contains (s, l, true)
  | _ => false

theorem circle_of_self {st : State} {i : Nat} (h : selfCircle st i = true) : Circle st := by
  unfold selfCircle at h
  split at h
  · next s l w hn =>
    simp only [List.contains_eq_mem, decide_eq_true_eq] at h
    exact ⟨i, .single ⟨s, l, w, hn, .inl ⟨true, h, .inr rfl⟩⟩⟩
  · cases h

/-- A world in which the `Close` of handlers calls one method. -/
def closing (m : Method) : World := ⟨fun _ c => if c = .handlerClose then m.prog else .skip, fun s => s + 1⟩

theorem callbacks_closing {m : Method} {allowed : Method → Bool} (h : allowed m = true) : Callbacks allowed (closing m) :=
  ⟨fun _ => .skip, fun _ => .skip, fun _ => .skip, fun _ => .method h⟩

/-- `NewMessenger` on a type that has a messenger, whose handler's `Close` calls the method.  What the method does inside. -/
def inside : Method → List Ev
  | .start => [.acq 0 .sess true, .rel 0 .sess true]
  | .setPause => [.acq 0 .pause true, .acq 0 .sess true, .acc 0 .pauseStart true, .acq 0 .state true, .rel 0 .state true, .rel 0 .sess true,
      .rel 0 .pause true]
  | .unsetPause => [.acq 0 .pause true, .acq 0 .sess true, .acq 0 .state true, .rel 0 .state true, .rel 0 .sess true, .rel 0 .pause true]
  | .newMessenger => [.acq 0 .sess true, .acc 0 .messengers false, .acc 0 .messengers true, .acc 0 .readChans true, .rel 0 .sess true]
  | .remoteIdentity => [.acq 0 .sess false, .acc 0 .remoteIdentity false, .rel 0 .sess false]
  | _ => []

def closingRun (m : Method) : List Ev :=
  [.acq 0 .sess true, .acc 0 .messengers false] ++ inside m ++ [.acc 0 .messengers true, .acc 0 .readChans true, .rel 0 .sess true]

theorem threads_closing (m : Method) (h : lockSafe m = false) : Threads (closing m) [(0, .user Calls.newMessenger)] [closingRun m] := by
  refine threads_of rfl ?_ ?_ (by decide)
  · cases m <;> first | (exact absurd h (by decide)) | decide +kernel
  · intro x hx p hp
    simp only [List.mem_singleton] at hx
    subst hx
    cases hp
    exact .method (m := .newMessenger) rfl

/-- C92, violation: each of the other methods, called by the `Close` of a handler that `NewMessenger` or `SetHandlerFuncs` replaces, waits
for a lock that its own goroutine holds. -/
theorem C92_violated (m : Method) (h : lockSafe m = false) :
    ∃ W roles runs cap st, Callbacks (· == m) W ∧ Threads W roles runs ∧ Reachable cap (start runs) st ∧ Circle st := by
  have key : ∃ n st, runSched (fun _ => 1) (start [closingRun m]) (List.replicate n 0) = some st ∧ selfCircle st 0 = true := by
    cases m with
    | start | newMessenger | remoteIdentity => exact ⟨2, _, rfl, by decide +kernel⟩
    | setPause | unsetPause => exact ⟨3, _, rfl, by decide +kernel⟩
    | _ => exact absurd h (by decide)
  obtain ⟨n, st, h1, h2⟩ := key
  exact ⟨closing m, _, _, fun _ => 1, st, callbacks_closing (by simp), threads_closing m h, reachable_sched _ .init h1, circle_of_self h2⟩

/-- C92, exactly: which methods `Error` and the `Close` of handlers can call without a deadlock of locks. -/
theorem C92_exact (m : Method) : lockSafe m = true ↔ ∀ W roles runs cap st, Callbacks (· == m) W → Threads W roles runs →
    Reachable cap (start runs) st → ¬ Circle st := by
  constructor
  · intro h W roles runs cap st h1 h2 h3
    exact no_circle (good_reachable (fun m' hm => by rw [beq_iff_eq] at hm; rw [hm]; exact h) h1 h2 h3)
  · intro h
    cases hm : lockSafe m with
    | true => rfl
    | false =>
      obtain ⟨W, roles, runs, cap, st, h1, h2, h3, h4⟩ := C92_violated m hm
      exact absurd h4 (h W roles runs cap st h1 h2 h3)

/-! ## C93 -/

theorem guarded_user {p : Prog} (h : UserCode (fun _ => true) p) : guarded [] p = true := by
  induction h with
  | skip => rfl
  | seq _ _ ih1 ih2 | alt _ _ ih1 ih2 => simp only [guarded, ih1, ih2, Bool.and_self]
  | loop _ ih | on _ ih => simp only [guarded, ih]
  | @method m _ => cases m <;> decide +kernel

/-- C93 (restriction that holds): in every execution no two goroutines are ever about to access one of the guarded fields at the same
time, one of them writing; whatever the callbacks do.  Missing: the other fields, see `C93_violated`. -/
theorem C93_partial {W : World} (hW : ∀ s c, UserCode (fun _ => true) (W.code s c)) {roles : List (Nat × Role)} {runs : List (List Ev)}
    (ht : Threads W roles runs) {cap : Nat → Nat} {st : State} (h : Reachable cap (start runs) st) (s : Nat) (x : Field)
    (hx : x ∈ [Field.remoteIdentity, .delayedBuf, .timer, .pauseStart, .interrupts, .keyPairs, .nextCreatedAt, .changeChan, .cancelFn]) :
    ¬ Race st s x := by
  have hg : ∀ t ∈ st.threads, Guarded t.held t.todo := by
    refine forall_threads Guarded ?_ (fun _ _ _ _ _ _ h hg => guarded_step h hg) h
    intro t hm
    obtain ⟨run, hr, rfl⟩ := List.mem_map.1 hm
    obtain ⟨i, hi, rfl⟩ := List.getElem_of_mem hr
    have hi' : i < roles.length := by rw [ht.length]; exact hi
    have hp : guarded [] roles[i].2.prog = true := by
      have hu := fun p => ht.user roles[i].1 p
      have hmem : roles[i] ∈ roles := List.getElem_mem hi'
      generalize roles[i] = r at hu hmem
      obtain ⟨s, r⟩ := r
      cases r with
      | user p => exact guarded_user (hu p hmem)
      | _ => dsimp only; decide +kernel
    have := guarded_run (fun s c => guarded_user (hW s c)) (ht.run i hi' hi) [] [] [] hp (by simp) trivial
    simpa using this
  have hex := exclusive start_held h
  obtain ⟨l, hl⟩ : ∃ l, guard x = some l := by
    revert hx
    cases x <;> first | (intro _; exact ⟨_, rfl⟩) | (intro hx; exact absurd hx (by decide))
  rintro ⟨i, j, w, w', hij, hi, hj, hw⟩
  obtain ⟨ti, di, h1, h2⟩ := next_thread hi
  obtain ⟨tj, dj, h3, h4⟩ := next_thread hj
  have gi := (hg _ (List.mem_of_getElem? h1)).1 l hl
  have gj := (hg _ (List.mem_of_getElem? h3)).1 l hl
  dsimp only at gi gj
  rw [← h2] at gi
  rw [← h4] at gj
  rcases gi with gi | ⟨rfl, gi⟩
  · rcases gj with gj | ⟨-, gj⟩
    · exact hex i j s l true hij gi gj
    · exact hex i j s l false hij gi gj
  · rcases gj with gj | ⟨rfl, gj⟩
    · exact hex j i s l false (Ne.symm hij) gj gi
    · rcases hw with hw | hw <;> cases hw

/-! ### Violation

Session 0 is connected with session 1; the runs below are those of session 0. -/

def plain : World := ⟨fun _ _ => .skip, fun s => 1 - s⟩

/-- `Start`. -/
def startRun : List Ev :=
  [.acq 0 .sess true, .rel 0 .sess true, .acq 0 .state true, .rel 0 .state true, .set 0 .kxStarted, .set 0 .started]

/-- The reader, before and after what it does with packets. -/
def readerRun (t : List Ev) : List Ev :=
  .wait 0 [.started] :: t ++ [.acq 0 .state true, .rel 0 .state true, .set 0 .ctx, .acc 0 .messengers false, .acc 0 .readChans false,
    .set 0 .item, .acq 0 .state true, .rel 0 .state true, .acq 0 .deadline true, .acc 0 .interrupts true, .rel 0 .deadline true,
    .set 0 .readerDone]

/-- `keyExchanger.Handle` on a public key, `t` at the end. -/
def handleRun (t : List Ev) : List Ev :=
  [.take 1, .acc 0 .messengers false, .acq 0 .kx true, .acq 0 .key true, .acc 0 .keyPairs false, .acc 0 .keyPairs true, .rel 0 .key true] ++
    t ++ [.rel 0 .kx true]

/-- `sendSuccessNotifications` with `negotiator.Start`. -/
def successRun : List Ev :=
  [.acq 0 .key false, .acc 0 .nextCreatedAt false, .acc 0 .localCreatedAt true, .rel 0 .key false, .acq 0 .state true, .rel 0 .state true,
    .acq 0 .neg true, .acc 0 .cancelFn false, .acc 0 .cancelFn true, .rel 0 .neg true, .set 0 .negStarted]

/-- `updateLocalKey` that makes a key. -/
def newKeyRun : List Ev :=
  [.acq 0 .key false, .acc 0 .nextCreatedAt false, .acc 0 .localCreatedAt false, .rel 0 .key false, .acq 0 .key true, .acc 0 .keyPairs true,
    .acc 0 .localPublic true, .acc 0 .nextCreatedAt true, .acc 0 .localCreatedAt false, .rel 0 .key true,
    .acq 0 .sess true, .acc 0 .secrets true, .rel 0 .sess true]

/-- The first key update of the loop. -/
def kxLoopRun : List Ev :=
  [.wait 0 [.kxStarted], .acq 0 .keyUpdate true, .acc 0 .skipUntil false, .acq 0 .kx true] ++ newKeyRun ++
    [.rel 0 .kx true, .acc 0 .localPublic false, .acq 0 .key false, .acc 0 .localPublic false, .rel 0 .key false, .rel 0 .keyUpdate true]

/-- The answer to the first message, before there is a key. -/
def answerRun : List Ev :=
  [.wait 0 [.answering], .acc 0 .localPublic false] ++ newKeyRun ++
    [.acc 0 .skipUntil true, .acq 0 .key false, .acc 0 .localPublic false, .rel 0 .key false]

/-- `NewMessenger`. -/
def messengerRun : List Ev :=
  [.acq 0 .sess true, .acc 0 .messengers false, .acc 0 .messengers true, .acc 0 .readChans true, .rel 0 .sess true]

/-- The negotiation ends: the ping sender, the control message of the other side, the finalizer. -/
def pingRun : List Ev := [.wait 0 [.negStarted], .set 0 .stageLocal, .set 0 .negTasks]
def controlRun : List Ev :=
  [.take 1, .acc 0 .messengers false, .acq 0 .neg true, .acc 0 .remoteRTT true, .rel 0 .neg true, .set 0 .stageRemote]
def pongRun : List Ev :=
  [.take 1, .acc 0 .messengers false, .acq 0 .neg true, .acc 0 .localRTT false, .acc 0 .localRTT true, .rel 0 .neg true,
    .acc 0 .recvChan false, .acq 0 .neg true, .acc 0 .localRTT false, .rel 0 .neg true]
def finalizerRun : List Ev :=
  [.wait 0 [.negStarted], .wait 0 [.stageLocal, .stageRemote], .wait 0 [.stageLocal], .wait 0 [.stageRemote], .acc 0 .localRTT false, .acc 0 .remoteRTT false,
    .acq 0 .state true, .rel 0 .state true, .set 0 .established]
def negCloserRun : List Ev :=
  [.wait 0 [.negStarted], .acq 0 .neg true, .acc 0 .cancelFn true, .set 0 .negCtx, .rel 0 .neg true, .wait 0 [.negTasks],
    .acc 0 .recvChan false, .acc 0 .recvChan true]

/-- Four packets arrive: two public keys, a control message and a pong (or a second control message). -/
def scenario (last : List Ev) : List ((Nat × Role) × List Ev) :=
  [((0, .user startSession), startRun),
   ((1, .user (.loop Calls.writeSingle)), [.put 1, .put 1, .put 1, .put 1]),
   ((0, .reader), readerRun (handleRun [.set 0 .answering] ++ handleRun successRun ++ controlRun ++ last)),
   ((0, .kxLoop), kxLoopRun),
   ((0, .kxAnswer), answerRun),
   ((0, .pingSender), pingRun),
   ((0, .finalizer), finalizerRun),
   ((0, .negCloser), negCloserRun),
   ((0, .user Calls.newMessenger), messengerRun),
   ((0, .user Calls.read), [.acc 0 .readChans false, .wait 0 [.item]]),
   ((0, .user getEphemeralKeys), [.acc 0 .secrets false])]

/-- These may be there several times: goroutines of the user, timers, answers, fragments. -/
example : (∀ p, (Role.user p).single = false) ∧ Role.closeTimer.single = false ∧ Role.kxAnswer.single = false ∧
    Role.negCloser.single = false ∧ Role.writeFragment.single = false := ⟨fun _ => rfl, rfl, rfl, rfl, rfl⟩


theorem threads_scenario {last : List Ev} (h : (scenario last).all (fun x => isRun plain x.1.1 x.1.2.prog x.2) = true) :
    Threads plain ((scenario last).map (·.1)) ((scenario last).map (·.2)) := by
  refine threads_of (by simp) ?_ ?_
    (show ∀ r ∈ (scenario []).map (·.1), r.2.single = true → ((scenario []).map (·.1)).count r = 1 by decide +kernel)
  · rw [List.zip_map']
    simpa using h
  · intro x hx p hp
    simp only [scenario, List.map_cons, List.map_nil, List.mem_cons, List.not_mem_nil, or_false] at hx
    rcases hx with rfl | rfl | rfl | rfl | rfl | rfl | rfl | rfl | rfl | rfl | rfl <;> cases hp
    · exact .method (m := .start) rfl
    · exact .loop (.method (m := .writeSingle) rfl)
    · exact .method (m := .newMessenger) rfl
    · exact .method (m := .read) rfl
    · exact .method (m := .ephemeralKeys) rfl

/-- The goroutines `i` and `j` race. -/
def raceOf (st : State) (s : Nat) (x : Field) (i j : Nat) : Bool :=
  decide (i ≠ j) && decide (st.next i = some (.acc s x true)) &&
    (decide (st.next j = some (.acc s x true)) || decide (st.next j = some (.acc s x false)))

theorem race_of {st : State} {s : Nat} {x : Field} {i j : Nat} (h : raceOf st s x i j = true) : Race st s x := by
  simp only [raceOf, Bool.and_eq_true, Bool.or_eq_true, decide_eq_true_eq] at h
  obtain ⟨⟨h1, h2⟩, h3 | h3⟩ := h
  · exact ⟨i, j, true, true, h1, h2, h3, .inl rfl⟩
  · exact ⟨i, j, true, false, h1, h2, h3, .inl rfl⟩

/-- How the goroutines of the scenario get to a race: who takes how many steps, and who races. -/
def toRace : Field → List (Nat × Nat) × Nat × Nat
  | .messengers => ([(0, 6), (1, 1), (2, 2), (8, 2)], 8, 2)
  | .readChans => ([(8, 3)], 8, 9)
  | .secrets => ([(0, 6), (3, 15)], 3, 10)
  | .localPublic => ([(0, 6), (1, 1), (2, 10), (4, 1), (3, 10)], 3, 4)
  | .localCreatedAt => ([(0, 6), (1, 2), (2, 19), (4, 4)], 2, 4)
  | .skipUntil => ([(0, 6), (1, 1), (2, 10), (4, 15), (3, 2)], 4, 3)
  | .localRTT => ([(0, 6), (1, 4), (2, 35), (5, 3), (6, 4), (2, 4)], 2, 6)
  | .remoteRTT => ([(0, 6), (1, 4), (2, 38), (5, 3), (6, 5)], 2, 6)
  | .recvChan => ([(0, 6), (1, 4), (2, 41), (5, 3), (7, 7)], 7, 2)
  | _ => ([], 0, 0)

/-- C93, violation: for each of the other fields there is an execution, without any callback, in which two goroutines access it at the
same time and one of them writes. -/
theorem C93_violated (x : Field) (hx : x ∈ [Field.messengers, .readChans, .secrets, .localPublic, .localCreatedAt, .skipUntil, .localRTT,
    .remoteRTT, .recvChan]) :
    ∃ roles runs cap st, Threads plain roles runs ∧ Reachable cap (start runs) st ∧ Race st 0 x := by
  have key : ∃ last st, (scenario last).all (fun x => isRun plain x.1.1 x.1.2.prog x.2) = true ∧
      runSched (fun _ => 4) (start ((scenario last).map (·.2))) (sched (toRace x).1) = some st ∧
      raceOf st 0 x (toRace x).2.1 (toRace x).2.2 = true := by
    have one : ∀ last, (scenario last).all (fun x => isRun plain x.1.1 x.1.2.prog x.2) = true →
        (match runSched (fun _ => 4) (start ((scenario last).map (·.2))) (sched (toRace x).1) with
          | some st => raceOf st 0 x (toRace x).2.1 (toRace x).2.2
          | none => false) = true → ∃ last st, (scenario last).all (fun x => isRun plain x.1.1 x.1.2.prog x.2) = true ∧
      runSched (fun _ => 4) (start ((scenario last).map (·.2))) (sched (toRace x).1) = some st ∧
      raceOf st 0 x (toRace x).2.1 (toRace x).2.2 = true := by
      intro last h1 h2
      split at h2
      · next st hs => exact ⟨last, st, h1, hs, h2⟩
      · cases h2
    cases x with
    | messengers | readChans | secrets | localPublic | localCreatedAt | skipUntil | localRTT | recvChan =>
      exact one pongRun (by decide +kernel) (by decide +kernel)
    | remoteRTT => exact one controlRun (by decide +kernel) (by decide +kernel)
    | _ => exact absurd hx (by decide)
  obtain ⟨last, st, h1, h2, h3⟩ := key
  exact ⟨_, _, _, st, threads_scenario h1, reachable_sched _ .init h2, race_of h3⟩

/-- C93, exactly: the fields on which there can be a data race. -/
theorem C93_exact (x : Field) :
    (∃ W roles runs cap st s, (∀ s c, UserCode (fun _ => true) (W.code s c)) ∧ Threads W roles runs ∧ Reachable cap (start runs) st ∧
      Race st s x) ↔
    x ∈ [Field.messengers, .readChans, .secrets, .localPublic, .localCreatedAt, .skipUntil, .localRTT, .remoteRTT, .recvChan] := by
  constructor
  · rintro ⟨W, roles, runs, cap, st, s, h1, h2, h3, h4⟩
    have := fun hx => C93_partial h1 h2 h3 s x hx h4
    cases x <;> first | decide | exact absurd (by decide) this
  · intro hx
    obtain ⟨roles, runs, cap, st, h1, h2, h3⟩ := C93_violated x hx
    exact ⟨plain, roles, runs, cap, st, 0, fun _ _ => .skip, h1, h2, h3⟩

/-- The hypotheses of `C92_partial` and `C92_progress_partial`: in this state of the scenario the goroutine 3 waits for a lock that the
reader holds. -/
example : Callbacks lockSafe plain ∧ Threads plain ((scenario pongRun).map (·.1)) ((scenario pongRun).map (·.2)) ∧
    ∃ st, Reachable (fun _ => 4) (start ((scenario pongRun).map (·.2))) st ∧ st.next 3 = some (.acq 0 .kx true) ∧
      step (fun _ => 4) st 3 = none := by
  refine ⟨⟨fun _ => .skip, fun _ => .skip, fun _ => .skip, fun _ => .skip⟩, threads_scenario (by decide +kernel), ?_⟩
  have : (runSched (fun _ => 4) (start ((scenario pongRun).map (·.2))) (sched [(0, 6), (1, 1), (2, 4), (3, 3)])).isSome = true := by
    decide +kernel
  rw [Option.isSome_iff_exists] at this
  obtain ⟨st, hst⟩ := this
  refine ⟨st, reachable_sched _ .init hst, ?_, ?_⟩
  · have : (runSched (fun _ => 4) (start ((scenario pongRun).map (·.2))) (sched [(0, 6), (1, 1), (2, 4), (3, 3)])).bind (·.next 3) =
        some (.acq 0 .kx true) := by decide +kernel
    rw [hst] at this
    exact this
  · have : (runSched (fun _ => 4) (start ((scenario pongRun).map (·.2))) (sched [(0, 6), (1, 1), (2, 4), (3, 3)])).bind
        (step (fun _ => 4) · 3) = none := by decide +kernel
    rw [hst] at this
    exact this

/-- Callbacks that do something. -/
example : Callbacks lockSafe ⟨fun _ c => match c with
    | .handle => Calls.write
    | .error => Calls.close
    | .handlerClose => Calls.writeAsync
    | .onConnect => Calls.pause, fun s => 1 - s⟩ :=
  ⟨fun _ => .method (m := .write) rfl, fun _ => .method (m := .setPause) rfl, fun _ => .method (m := .close) rfl,
    fun _ => .method (m := .writeAsync) rfl⟩

#print axioms C92_partial
#print axioms C92_progress_partial
#print axioms C92_violated
#print axioms C92_exact
#print axioms C93_partial
#print axioms C93_violated
#print axioms C93_exact

end Verif.Sync
