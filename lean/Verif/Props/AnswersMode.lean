import Verif.Lemmas.AnswersMode
/-!
# C176: over a whole execution the answers mode means what its documentation says

1 is `KeyExchangeAnswersModeAnswerAndWait`, 2 is `…Answer`, 3 is `…Disable` (key_exchanger.go:180-198); `newKeyExchanger`
replaces 0, and any other number is taken as it is.  `s.sent` is what was written, `s.accepted` has one entry for each
message that was accepted, `s.successes` counts the calls of `doneFunc`.
-/
namespace Verif.KX
open Verif.Headers
variable {C : Crypto} {cfg : Cfg}

/-- C176, `Disable`: no answer is ever sent, and none is on its way. -/
theorem C176_disable {remote : Option Bytes} {as : List Act} {s : State} (hm : cfg.mode = 3)
    (h : runActs C cfg (State.init remote) as = .ok s) : (∀ m ∈ s.sent, isAnswerMsg m = false) ∧ s.answers = [] := by
  have := (ledger_run as (Reachable.init (C := C) (cfg := cfg) (remote := remote)) h).2.2.2 hm
  simp only [State.init, List.countP_nil, List.length_nil] at this
  refine ⟨fun m hmem => ?_, List.eq_nil_of_length_eq_zero (by omega)⟩
  have h0 : s.sent.countP isAnswerMsg = 0 := by omega
  simpa using List.countP_eq_zero.1 h0 m hmem

/-- C176, `AnswerAndWait`: the exchange is not successful more often than an answer came. -/
theorem C176_wait {remote : Option Bytes} {as : List Act} {s : State} (hm : cfg.mode = 1)
    (h : runActs C cfg (State.init remote) as = .ok s) : s.successes ≤ (received as).countP isAnswerMsg := by
  have := (ledger_run as (Reachable.init (C := C) (cfg := cfg) (remote := remote)) h).1 hm
  simp only [State.init, Reader.replies, received_replies] at this
  omega

/-- C176, the other modes: the exchange is successful with each accepted message, whatever it is. -/
theorem C176_dont_wait {remote : Option Bytes} {as : List Act} {s : State} (hm : cfg.mode ≠ 1)
    (h : runActs C cfg (State.init remote) as = .ok s) (hi : s.reader = .idle) : s.successes = s.accepted.length := by
  have := (ledger_run as (Reachable.init (C := C) (cfg := cfg) (remote := remote)) h).2.1 hm
  simp only [State.init, List.length_nil, hi, Reader.held] at this
  omega

/-- C176, all modes but `Disable`: when the reader and the answering goroutines are at rest, there is an answer, or a report
of the failure to write one, for each message that was accepted and is not an answer. (Not more than one: C129.) -/
theorem C176_answer {remote : Option Bytes} {as : List Act} {s : State} (hm : cfg.mode ≠ 3)
    (h : runActs C cfg (State.init remote) as = .ok s) (hi : s.reader = .idle) (ha : s.answers = []) :
    s.accepted.length ≤ (received as).countP isAnswerMsg + s.sent.countP isAnswerMsg + s.reports.count .sendFailed := by
  have := (ledger_run as (Reachable.init (C := C) (cfg := cfg) (remote := remote)) h).2.2.1 hm
  simp only [State.init, List.countP_nil, List.count_nil, List.length_nil, hi, ha, Reader.heldRequest, Reader.unread,
    received_replies] at this
  omega

/-- An execution with a mode: a key is made and sent, a request and an answer of a peer with the same mode arrive, and an
answering goroutine, if there is one, runs. -/
def modeRun (mode : Byte) (answers : List Act) : Outcome Crash State :=
  runActs toy { alice with mode := mode } (State.init none)
    (rotate [5] 1 ++ handle (kxMessage toy { bob with mode := mode } (toy.pub [1]) false) ++ answers ++
      handle (kxMessage toy { bob with mode := mode } (toy.pub [1]) true))

/-- What can be seen of it: answers sent, successes, messages accepted, at rest. -/
def modeSeen (r : Outcome Crash State) : Option (List Bool × Nat × Nat × Bool) :=
  match r with
  | .ok s => some (s.sent.map isAnswerMsg, s.successes, s.accepted.length, decide (s.reader = .idle ∧ s.answers = []))
  | _ => none

/-- `AnswerAndWait`: a request and an answer sent; successful with the answer only. -/
example : modeSeen (modeRun 1 [.answer 0 none 0 true, .answer 0 none 0 true]) = some ([false, true], 1, 2, true) := by
  decide +kernel

/-- `Answer`: answered, and successful with both. -/
example : modeSeen (modeRun 2 [.answer 0 none 0 true, .answer 0 none 0 true]) = some ([false, true], 2, 2, true) := by
  decide +kernel

/-- `Disable`: not answered, and successful with both; there is no goroutine to run. -/
example : modeSeen (modeRun 3 []) = some ([false], 2, 2, true) ∧ modeSeen (modeRun 3 [.answer 0 none 0 true]) = none := by
  decide +kernel

/-- A mode that does not exist is taken for `Answer`. -/
example : modeSeen (modeRun 77 [.answer 0 none 0 true, .answer 0 none 0 true]) = some ([false, true], 2, 2, true) := by
  decide +kernel

/-- The answer that could not be written is reported. -/
example :
    (match runActs toy { alice with mode := 2 } (State.init none)
        (rotate [5] 1 ++ handle (kxMessage toy { bob with mode := 2 } (toy.pub [1]) false) ++
          [.answer 0 none 0 true, .answer 0 none 0 false]) with
      | .ok s => decide (s.reports = [.sendFailed] ∧ s.sent.map isAnswerMsg = [false] ∧ s.accepted.length = 1 ∧
          s.reader = .idle ∧ s.answers = [])
      | _ => false) = true := by
  decide +kernel

#print axioms C176_disable
#print axioms C176_wait
#print axioms C176_dont_wait
#print axioms C176_answer

end Verif.KX
