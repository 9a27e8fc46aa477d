import Verif.Props.SendNow

/-!
# C122: writing alone does not crash the process

`WriteMessageAsync` with `SendDelay` (session.go:1577-1666), the sender loop and the pool of the `SendInfo`s
(send_info.go:33-123), as modelled in `Verif.Model.DelayedSend`. A `crash` of the model is a panic that is not recovered.
-/

namespace Verif.DelayedSend

/-- Executions in which a call of `WriteMessageAsync` begins only when no other call is waiting for room in the buffer. -/
inductive Seq (cfg : Cfg) : State → Prop
  | init : Seq cfg State.init
  | step {s s'} (a : Act) : Seq cfg s → (∀ m r, a = .write m r → s.writers = []) → DelayedSend.step cfg s a = .ok s' → Seq cfg s'

theorem Seq.reachable {cfg : Cfg} {s : State} (h : Seq cfg s) : Reachable cfg s := by
  induction h with
  | init => exact .init
  | step a _ _ hs ih => exact .step a ih hs

theorem Seq.calm {cfg : Cfg} (hf : cfg.frag = false) {s : State} (h : Seq cfg s) : Calm s := by
  induction h with
  | init => exact calm_init
  | step a h hw hs ih => exact calm_step hf ih h.reachable hw hs

/-- **C122 for one writer at a time, without fragmentation, before anybody calls `Close`**: whatever the sender loop, the
callers of `SendNow`, `Wait` and `Release`, the backend and the pool do, and whenever the context ends, no step crashes,
except for a `SendNow` after the sender loop has ended. -/
theorem C122_partial {cfg : Cfg} {s : State} (hf : cfg.frag = false) (h : Seq cfg s) (hc : s.closer = .none) {a : Act} {e : Crash}
    (hs : step cfg s a = .err e) : e = .closedChannel ∧ (∃ i, a = .sendNowChan i) ∧ s.main = .exited := by
  rcases C72_only_two_partial hf h.reachable hs with ⟨rfl, rfl⟩ | h1
  · exfalso
    have hst := (h.calm hf).stage hc
    simp only [step] at hs
    split at hs
    · rename_i y hm
      rw [hm] at hst
      replace hst : (s.infos y).closed = true := hst
      unfold release at hs
      simp only [hst] at hs
      (repeat' split at hs) <;> simp_all
    · cases hs
  · exact h1

/-- With one writer at a time the sender loop is never given a `SendInfo` that is in the pool. -/
theorem C122_pool_partial {cfg : Cfg} {s : State} (hf : cfg.frag = false) (h : Seq cfg s) {x : Nat} (hx : x ∈ s.main.given) :
    x ∉ s.pool := by
  intro hp
  have h1 := (h.calm hf).given x hx
  have h2 := (inv_reachable h.reachable).1.ref.poolFree x hp
  simp_all

/-! ### Several writers -/

def smallCfg : Cfg := ⟨50, false⟩

/-- The crash of a step. -/
def crashAt (cfg : Cfg) (s : State) (a : Act) : Option Crash :=
  match step cfg s a with
  | .err e => some e
  | _ => none

theorem crashAt_eq {cfg : Cfg} {s : State} {a : Act} {e : Crash} (h : crashAt cfg s a = some e) : step cfg s a = .err e := by
  unfold crashAt at h
  split at h <;> cases h
  assumption

/-- Three goroutines write while `onConnect` flushes; the buffer has room for the first message only. The flush sends it, the
`SendInfo` goes to the pool. The second writer finds it there: its panic is recovered, but the count stays at 1. The third
one does not find out any more, and hands it to the sender loop. The loop takes it out of the pool to be the next current
one, and `Release`s it after its flush. -/
def staleRun : List Act :=
  [.connect none, .write exMsg none, .write [4, 5, 6, 7] none, .write [4, 5, 6, 7] none, .mainFlush .swap none, .mainFlush .check none,
   .mainFlush (.write true) none, .mainFlush .close none, .mainFlush .release none, .userRelease 0,
   .mainFlush .swap none, .mainFlush .close none, .mainFlush .release none,
   .inc 0 none, .inc 0 none, .poke 1 true none, .handle (some 0), .mainFlush .swap none, .mainFlush .close none, .mainFlush .release none]

/-- An action of nobody but writers, their `Release`, and the sender loop. -/
def Act.Plain : Act → Prop
  | .write .. | .retry .. | .inc .. | .poke .. | .wake .. | .tick .. | .userRelease .. | .connect .. | .timer .. | .handle ..
  | .mainFlush .. | .mainRelease => True
  | _ => False

instance (a : Act) : Decidable a.Plain := by cases a <;> unfold Act.Plain <;> infer_instance

/-- **C122 is violated**: three calls of `WriteMessageAsync` and one `Release` crash the process. There is no fragmentation,
nobody calls `SendNow` or `Close`, the context does not end, and every call of the backend succeeds. -/
theorem C122_violated : ∃ as s, (∀ a ∈ as, a.Plain) ∧ runActs smallCfg State.init as = .ok s ∧ s.closer = .none ∧ s.ctx = false ∧
    s.accepted.length = 1 ∧ step smallCfg s .mainRelease = .err .unfinishedRelease :=
  ⟨staleRun, okState smallCfg staleRun, by decide +kernel, okState_eq (by decide +kernel), by decide +kernel, by decide +kernel,
    by decide +kernel, crashAt_eq (by decide +kernel)⟩

/-- The same long after `onConnect`: an error report (for a message that is too big) is taken from the pool and given back
between the flush and the next step of the two writers. -/
def laterRun : List Act :=
  [.write exMsg none, .write [4, 5, 6, 7] none, .write [4, 5, 6, 7] none, .timer (some 0), .mainFlush .swap none, .mainFlush .check none,
   .mainFlush (.write true) none, .mainFlush .close none, .mainFlush .release none, .userRelease 0,
   .write (List.replicate 99 0) (some 1), .userRelease 0, .inc 0 none, .inc 0 none, .poke 1 true none, .handle (some 1),
   .mainFlush .swap none, .mainFlush .close none, .mainFlush .release none]

theorem C122_violated_later : ∃ as s, (∀ a ∈ as, a.Plain) ∧ runActs smallCfg State.init (connected ++ as) = .ok s ∧
    s.closer = .none ∧ s.ctx = false ∧ step smallCfg s .mainRelease = .err .unfinishedRelease :=
  ⟨laterRun, okState smallCfg (connected ++ laterRun), by decide +kernel, okState_eq (by decide +kernel), by decide +kernel,
    by decide +kernel, crashAt_eq (by decide +kernel)⟩

/-! ### An execution with one writer at a time -/

/-- No other call is waiting when this one begins. -/
def Act.mayBegin (s : State) : Act → Bool
  | .write .. => s.writers.isEmpty
  | _ => true

/-- Executions with one writer at a time, as a list. -/
def runSeq (cfg : Cfg) : State → List Act → Option State
  | s, [] => some s
  | s, a :: as =>
    if a.mayBegin s then
      match step cfg s a with
      | .ok s' => runSeq cfg s' as
      | _ => none
    else none

theorem runSeq_seq {cfg : Cfg} {as : List Act} : ∀ {s s' : State}, Seq cfg s → runSeq cfg s as = some s' → Seq cfg s' := by
  induction as with
  | nil => intro s s' h hs; cases hs; exact h
  | cons a as ih =>
    intro s s' h hs
    simp only [runSeq] at hs
    split at hs
    · rename_i hw
      split at hs
      · rename_i s1 h1
        refine ih (.step a h ?_ h1) hs
        intro m r e
        subst e
        simpa [Act.mayBegin] using hw
      · cases hs
    · cases hs

/-- The second message does not fit; its writer asks the loop to flush, and waits. -/
def seqRun : List Act :=
  connected ++ [.write exMsg none, .write [4, 5, 6, 7] none, .inc 0 none, .poke 0 true none, .handle (some 0), .mainFlush .swap none,
   .mainFlush .check none, .mainFlush (.write true) none, .mainFlush .close none, .mainFlush .release none]

def seqState : State := (runSeq smallCfg State.init seqRun).getD State.init

theorem seqState_eq : runSeq smallCfg State.init seqRun = some seqState := by
  have h : (runSeq smallCfg State.init seqRun).isSome = true := by decide +kernel
  unfold seqState
  cases hs : runSeq smallCfg State.init seqRun with
  | none => rw [hs] at h; cases h
  | some s => rfl

example : Seq smallCfg seqState ∧ seqState.closer = .none ∧ seqState.main = .leaving 1 ∧
    seqState.writers = [.waiting 1 [4, 5, 6, 7]] ∧ seqState.wire.length = 1 :=
  ⟨runSeq_seq .init seqState_eq, by decide +kernel⟩

#print axioms C122_partial
#print axioms C122_pool_partial
#print axioms C122_violated
#print axioms C122_violated_later

end Verif.DelayedSend
