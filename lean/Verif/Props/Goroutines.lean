import Verif.Lemmas.Amplify
import Verif.Props.KeyExchange
/-!
# C166: what is received does not make a session start goroutines without bound

`Handle` starts a goroutine for every request (key_exchanger.go:478-485), which ends when its answer has been written to
the backend.  These are the only goroutines that are started for a received message; in the model they are `answers`.
-/
namespace Verif.KX
open Verif.Headers

variable {C : Crypto} {cfg : Cfg}

/-- C166 for `bound` goroutines: there are never more, whatever is received. -/
def Bounded (C : Crypto) (cfg : Cfg) (remote : Option Bytes) (bound : Nat) : Prop :=
  ∀ as s, runActs C cfg (State.init remote) as = .ok s → s.answers.length ≤ bound

/-- C166, the part that holds for every execution: there are not more goroutines than requests that have been received
and not yet been answered.  Missing: a bound of the latter. -/
theorem C166_count_partial {remote : Option Bytes} {as : List Act} {s : State}
    (h : runActs C cfg (State.init remote) as = .ok s) :
    s.answers.length + s.sent.countP isAnswerMsg ≤
      (received as).countP (fun b => decide (146 ≤ b.length) && !isAnswerMsg b) := by
  have := (counts_run as (Reachable.init (C := C) (cfg := cfg) (remote := remote)) h).1
  simp only [State.init, List.countP_nil, List.length_nil, Reader.asks, received_requests] at this
  omega

/-- The executions on a backend that is faster than the messages come in: when a message arrives, the answers to those
before have been sent. -/
inductive QuickReach (C : Crypto) (cfg : Cfg) (remote : Option Bytes) : State → Prop
  | init : QuickReach C cfg remote (State.init remote)
  | step {s s' : State} (a : Act) : QuickReach C cfg remote s → (∀ b, a = .recv b → s.answers = []) →
      step C cfg s a = .ok s' → QuickReach C cfg remote s'

theorem quick_one {remote : Option Bytes} {s : State} (h : QuickReach C cfg remote s) :
    s.answers.length + s.reader.asks ≤ 1 := by
  have hb : ∀ b : Bool, b.toNat ≤ 1 := by decide
  induction h with
  | init => simp [State.init, Reader.asks]
  | @step s s' a _ hq hs ih =>
    by_cases h1 : ∃ b, a = .recv b
    · obtain ⟨b, rfl⟩ := h1
      have hq := hq b rfl
      simp only [step] at hs
      split at hs
      · split at hs <;> simp only [Outcome.ok.injEq, reduceCtorEq] at hs <;> subst hs
        · simp only [hq, Reader.asks, List.length_nil]
          have := hb (!isAnswer (‹KxMsg›).flags)
          omega
        · exact ih
      · simp at hs
    · by_cases h2 : a = .reader
      · subst h2
        simp only [step, readerStep] at hs
        split at hs
        · simp at hs
        · rename_i b msg hrd
          rw [hrd] at ih
          split at hs
          · simp at hs
          · simp only [Outcome.ok.injEq] at hs
            subst hs
            unfold enter
            split
            · simp only [Reader.asks] at ih ⊢; omega
            · split
              · simp only [Reader.asks] at ih ⊢; omega
              · simpa only [Reader.asks] using ih
        · rename_i msg hrd
          rw [hrd] at ih
          split at hs <;> simp only [Outcome.ok.injEq, reduceCtorEq] at hs
          subst hs; simpa only [Reader.asks] using ih
        · rename_i msg l hrd
          rw [hrd] at ih
          split at hs <;> simp only [Outcome.ok.injEq, reduceCtorEq] at hs
          rename_i s1 hp
          obtain ⟨k, hk, _⟩ := publish_eq hp
          subst hs; rw [hk]; simpa only [Reader.asks] using ih
        · rename_i msg hrd
          rw [hrd] at ih
          simp only [Outcome.ok.injEq] at hs; subst hs
          simp only [Reader.asks] at ih
          unfold finish
          cases ha : isAnswer msg.flags <;> cases succeeds cfg msg <;> simp [answered, ha, Reader.asks] at ih ⊢ <;>
            (try split) <;> simp_all
      · have hf := step_frame hs (fun b e => h1 ⟨b, e⟩) h2
        have := hf.answers
        rw [hf.reader]
        omega

/-- C166, the part that holds for a quick backend: there is at most one such goroutine.  Missing: a backend on which
writing waits while messages come in. -/
theorem C166_quick_partial {remote : Option Bytes} {s : State} (h : QuickReach C cfg remote s) : s.answers.length ≤ 1 := by
  have := quick_one h
  omega

/-- C166: with `KeyExchangeAnswersModeDisable` there are no such goroutines at all. -/
theorem C166_disabled (hm : cfg.mode = 3) {remote : Option Bytes} : Bounded C cfg remote 0 := by
  intro as s h
  have key : ∀ {t : State}, Reachable C cfg remote t → t.answers = [] := by
    intro t ht
    induction ht with
    | init => rfl
    | @step s s' a _ hs ih =>
      by_cases h1 : ∃ b, a = .recv b
      · obtain ⟨b, rfl⟩ := h1
        simp only [step] at hs
        split at hs
        · split at hs <;> simp only [Outcome.ok.injEq, reduceCtorEq] at hs <;> subst hs <;> exact ih
        · simp at hs
      · by_cases h2 : a = .reader
        · subst h2
          simp only [step, readerStep] at hs
          split at hs
          · simp at hs
          · split at hs
            · simp at hs
            · simp only [Outcome.ok.injEq] at hs
              subst hs
              unfold enter
              split
              · exact ih
              · split <;> exact ih
          · split at hs <;> simp only [Outcome.ok.injEq, reduceCtorEq] at hs
            subst hs; exact ih
          · split at hs <;> simp only [Outcome.ok.injEq, reduceCtorEq] at hs
            rename_i s1 hp
            obtain ⟨k, hk, _⟩ := publish_eq hp
            subst hs; rw [hk]; exact ih
          · rename_i msg _
            simp only [Outcome.ok.injEq] at hs; subst hs
            unfold finish
            cases succeeds cfg msg <;> simpa [answered, hm] using ih
        · have hf := step_frame hs (fun b e => h1 ⟨b, e⟩) h2
          have := hf.answers
          rw [ih] at this
          exact List.eq_nil_of_length_eq_zero (by simpa using this)
  simp [key (runActs_reachable as .init h)]

/-- A state in which the request `b` of the known identity has been handled. -/
structure Settled (C : Crypto) (cfg : Cfg) (b : Bytes) (msg : KxMsg) (id : Bytes) (l : List (Option Bytes)) (s : State) : Prop where
  valid : Valid C cfg id b msg
  ident : s.remoteIdentity = some id
  reader : s.reader = .idle
  ctx : s.ctx = false
  main : s.main.locks = false
  remote : s.keys.nextRemote = some msg.kxPublicKey
  secrets : secrets C cfg.psk s.keys = some l
  same : setSecrets s.sess l = some s.sess

theorem settled_handle {b : Bytes} {msg : KxMsg} {id : Bytes} {l : List (Option Bytes)} {s : State}
    (h : Settled C cfg b msg id l s) (hn : isAnswer msg.flags = false) (hm : cfg.mode ≠ 3) :
    ∃ s', runActs C cfg s (handle b) = .ok s' ∧ Settled C cfg b msg id l s' ∧ s'.answers = s.answers ++ [.start] ∧
      s'.sent = s.sent := by
  have hp := (parse_valid h.valid).1
  have hpub : ∀ t : State, t.sess = s.sess → publish t l = some t := by
    intro t ht
    unfold publish
    split
    · rfl
    · rw [ht, h.same, ← ht]; rfl
  have hk : s.keys.receive msg.kxPublicKey = s.keys := by simp [Keys.receive, h.remote]
  refine ⟨finish cfg { s with
      remoteIdentity := some id
      remoteSessionID := s.remoteSessionID.or (some msg.sessionID)
      accepted := s.accepted ++ [msg.kxPublicKey]
      reader := .finish msg } msg, ?_, ?_, ?_, ?_⟩
  · simp [handle, runActs, step, h.reader, h.ident, hp, readerStep, h.main, enter, h.ctx, hk, h.secrets, hpub]
  · obtain ⟨f1, -, f3, -, f5, f6, f7, -⟩ := finish_frame (cfg := cfg) { s with
      remoteIdentity := some id
      remoteSessionID := s.remoteSessionID.or (some msg.sessionID)
      accepted := s.accepted ++ [msg.kxPublicKey]
      reader := .finish msg } msg
    refine ⟨h.valid, f1, f5, ?_, by rw [f7]; exact h.main, by rw [f3]; exact h.remote, by rw [f3]; exact h.secrets,
      by rw [f6]; exact h.same⟩
    unfold finish; cases succeeds cfg msg <;> exact h.ctx
  · unfold finish; cases succeeds cfg msg <;> simp [answered, hn] <;> exact hm
  · unfold finish; cases succeeds cfg msg <;> rfl

theorem runActs_append : ∀ (as bs : List Act) {s s1 : State}, runActs C cfg s as = .ok s1 →
    runActs C cfg s (as ++ bs) = runActs C cfg s1 bs := by
  intro as
  induction as with
  | nil => intro bs s s1 h; simp only [runActs, Outcome.ok.injEq] at h; subst h; rfl
  | cons a as ih =>
    intro bs s s1 h
    simp only [runActs] at h
    split at h <;> try (simp only [reduceCtorEq] at h; done)
    rename_i s2 h2
    simp only [List.cons_append, runActs, h2]
    exact ih bs h

/-- Negation of C166, in general: a session that has accepted a request and sends slowly gets one more goroutine each time
that the same bytes arrive again; nobody has to sign anything. -/
theorem C166_violated {b : Bytes} {msg : KxMsg} {id : Bytes} {l : List (Option Bytes)} {s : State}
    (h : Settled C cfg b msg id l s) (hn : isAnswer msg.flags = false) (hm : cfg.mode ≠ 3) :
    ∀ n, ∃ s', runActs C cfg s (List.replicate n (handle b)).flatten = .ok s' ∧
      s'.answers.length = s.answers.length + n ∧ s'.sent = s.sent := by
  intro n
  induction n generalizing s with
  | zero => exact ⟨s, rfl, rfl, rfl⟩
  | succ n ih =>
    obtain ⟨s1, h1, h2, h3, h4⟩ := settled_handle h hn hm
    obtain ⟨s2, h5, h6, h7⟩ := ih h2
    refine ⟨s2, ?_, by rw [h6, h3]; simp; omega, h7.trans h4⟩
    rw [List.replicate_succ, List.flatten_cons, runActs_append _ _ h1]
    exact h5

/-- Alice has made a key and has got the request of Bob. -/
def busy : State := aliceAt (rotate [4] 5 ++ handle bob1)

theorem busy_settled : Settled toy alice bob1 (KxMsg.decode (bodyOf bob1)) (toy.idPub [8])
    ((secrets toy alice.psk busy.keys).getD []) busy :=
  ⟨⟨by decide +kernel, by decide +kernel, rfl, by decide +kernel, by decide +kernel⟩, by decide +kernel, by decide +kernel,
    by decide +kernel, by decide +kernel, by decide +kernel, by decide +kernel, by decide +kernel⟩

/-- Negation of C166: no bound holds for Alice, in the default mode. -/
theorem C166_violated_witness : ∀ bound, ¬ Bounded toy alice none bound := by
  intro n hb
  obtain ⟨s, h1, h2, -⟩ := C166_violated busy_settled (by decide +kernel) (by decide +kernel) (n + 1)
  have h0 : runActs toy alice (State.init none) (rotate [4] 5 ++ handle bob1) = .ok busy := okState_eq (by decide +kernel)
  have := hb _ s ((runActs_append _ _ h0).trans h1)
  omega

/-- Three copies of a request, and the answers to them. -/
example : (aliceAt (rotate [4] 5 ++ handle bob1 ++ handle bob1 ++ handle bob1)).answers.length = 3 ∧
    (aliceAt (rotate [4] 5 ++ handle bob1 ++ handle bob1 ++ [.answer 0 none 0 true, .answer 0 none 0 true])).answers.length = 1 ∧
    (aliceAt (rotate [4] 5 ++ handle bobAnswer)).answers.length = 0 := by decide +kernel

/-- Checks that a list of actions is an execution on a quick backend. -/
def quickOK (C : Crypto) (cfg : Cfg) : State → List Act → Bool
  | _, [] => true
  | s, a :: as =>
    (match a with | .recv _ => s.answers.isEmpty | _ => true) &&
      match step C cfg s a with
      | .ok s' => quickOK C cfg s' as
      | _ => false

theorem quick_run {remote : Option Bytes} : ∀ (as : List Act) {s s' : State}, QuickReach C cfg remote s →
    quickOK C cfg s as = true → runActs C cfg s as = .ok s' → QuickReach C cfg remote s' := by
  intro as
  induction as with
  | nil => intro s s' h _ hs; simp only [runActs, Outcome.ok.injEq] at hs; exact hs ▸ h
  | cons a as ih =>
    intro s s' h hq hs
    simp only [runActs] at hs
    split at hs <;> try (simp only [reduceCtorEq] at hs; done)
    rename_i s1 h1
    simp only [quickOK, h1, Bool.and_eq_true] at hq
    exact ih (.step a h (fun b e => by subst e; simpa using hq.1) h1) hq.2 hs

/-- Two requests, each answered before the next message. -/
def quickActs : List Act :=
  rotate [4] 5 ++ handle bob1 ++ [.answer 0 none 0 true, .answer 0 none 0 true] ++ handle bob2

example : QuickReach toy alice none (aliceAt quickActs) ∧ (aliceAt quickActs).answers.length = 1 :=
  ⟨quick_run quickActs .init (by decide +kernel) (okState_eq (by decide +kernel)), by decide +kernel⟩

#print axioms C166_count_partial
#print axioms C166_quick_partial
#print axioms C166_disabled
#print axioms C166_violated
#print axioms C166_violated_witness

end Verif.KX
