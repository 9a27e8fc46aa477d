import Verif.Props.KeyRotation
import Verif.Props.Codec
import Verif.Spec.Amplify
/-! Counting key-exchange messages (helpers). -/
namespace Verif.KX
open Verif.Headers
variable {C : Crypto} {cfg : Cfg}

theorem body_kxMessage (p : Bytes) (x : Bool) (hp : p.length = 32) :
    ((kxMessage C cfg p x).drop 64).take 82 = KxMsg.encode ⟨cfg.sessionID, C.idPub cfg.identity, p, cfg.mode, setIsAnswer 0 x⟩ ∧
    (kxMessage C cfg p x).length = 146 := by
  have h1 := (C08_key_exchange_message.1 ⟨cfg.sessionID, C.idPub cfg.identity, p, cfg.mode, setIsAnswer 0 x⟩
    ⟨C.idPub_length _, hp⟩).1
  simp only [signatureSize, kxSignedSize] at h1
  have hl := C.sign_length cfg.identity (KxMsg.encode ⟨cfg.sessionID, C.idPub cfg.identity, p, cfg.mode, setIsAnswer 0 x⟩)
  constructor
  · unfold kxMessage
    simp only
    rw [List.drop_left' hl, List.take_of_length_le (by omega)]
  · unfold kxMessage
    simp only [List.length_append]
    omega

theorem isAnswerMsg_kxMessage (p : Bytes) (x : Bool) (hp : p.length = 32) : isAnswerMsg (kxMessage C cfg p x) = x := by
  unfold isAnswerMsg
  rw [(body_kxMessage p x hp).1, (C08_key_exchange_message.1 _ ⟨C.idPub_length _, hp⟩).2]
  exact (C05_flags 0 x).2.2.2.2.1

theorem nextPub_length {remote : Option Bytes} {s : State} (h : Reachable C cfg remote s) {p : Bytes} (hp : s.nextPub = some p) :
    p.length = 32 := by
  rw [nextPub_eq h] at hp
  cases hk : s.keys.nextLocal with
  | none => simp [hk] at hp
  | some k =>
    simp only [hk, Option.map_some, Option.some.injEq] at hp
    rw [← hp]; exact C.pub_length _

/-- A message in the hands of the reader that may have to be answered. -/
def Reader.asks : Reader → Nat
  | .idle => 0
  | .parsed _ m => (!isAnswer m.flags).toNat
  | .snapshot m => (!isAnswer m.flags).toNat
  | .publish m _ => (!isAnswer m.flags).toNat
  | .finish m => (!isAnswer m.flags).toNat

/-- The loop is about to send. -/
def Main.asks : Main → Nat
  | .gen _ => 1
  | .send => 1
  | _ => 0

/-- A request arrives. -/
def Act.request : Act → Bool
  | .recv b => decide (146 ≤ b.length) && !isAnswerMsg b
  | _ => false

/-- The loop begins an update or sends again. -/
def Act.own : Act → Bool
  | .tick => true
  | .retry _ => true
  | _ => false

structure Counts (s s' : State) (a : Act) : Prop where
  answers : s'.sent.countP isAnswerMsg + s'.answers.length + s'.reader.asks ≤
    s.sent.countP isAnswerMsg + s.answers.length + s.reader.asks + a.request.toNat
  requests : s'.sent.countP (!isAnswerMsg ·) + s'.main.asks ≤ s.sent.countP (!isAnswerMsg ·) + s.main.asks + a.own.toNat

theorem counts_step {remote : Option Bytes} {s s' : State} {a : Act} (hr : Reachable C cfg remote s)
    (hs : step C cfg s a = .ok s') : Counts s s' a := by
  have send : ∀ {t : State} {x ok : Bool}, sendPublicKey C cfg s x ok = .ok t →
      t.sent.countP isAnswerMsg ≤ s.sent.countP isAnswerMsg + x.toNat ∧
      t.sent.countP (!isAnswerMsg ·) ≤ s.sent.countP (!isAnswerMsg ·) + (!x).toNat ∧ t.answers = s.answers ∧
      t.reader = s.reader ∧ t.main = s.main := by
    intro t x ok h
    rcases sendPublicKey_ok h with ⟨p, hp, rfl⟩ | rfl
    · have := isAnswerMsg_kxMessage (C := C) (cfg := cfg) p x (nextPub_length hr hp)
      refine ⟨?_, ?_, rfl, rfl, rfl⟩
      · simp only [List.countP_append, List.countP_singleton, this]; cases x <;> simp
      · simp only [List.countP_append, List.countP_singleton, this]; cases x <;> simp
    · exact ⟨by simp, by simp, rfl, rfl, rfl⟩
  cases a with
  | recv b =>
    simp only [step] at hs
    split at hs
    · rename_i hi
      split at hs <;> simp only [Outcome.ok.injEq, reduceCtorEq] at hs
      · rename_i msg hp
        subst hs
        have h1 := parse_ok hp
        refine ⟨?_, Nat.le_add_right _ _⟩
        simp only [hi, Reader.asks, Act.request, isAnswerMsg]
        obtain ⟨h2, -, h3, -⟩ := h1
        rw [h3]
        simp [h2, bodyOf]
      · subst hs
        exact ⟨Nat.le_add_right _ _, Nat.le_add_right _ _⟩
    · simp at hs
  | reader =>
    simp only [step, readerStep] at hs
    split at hs
    · simp at hs
    · rename_i b msg hm
      split at hs
      · simp at hs
      · simp only [Outcome.ok.injEq] at hs
        subst hs
        unfold enter
        split
        · exact ⟨by simp only [Reader.asks]; omega, Nat.le_add_right _ _⟩
        · split
          · exact ⟨by simp only [Reader.asks]; omega, Nat.le_add_right _ _⟩
          · exact ⟨by simp only [Reader.asks, hm]; omega, Nat.le_add_right _ _⟩
    · rename_i msg hm
      split at hs
      · simp at hs
      · simp only [Outcome.ok.injEq] at hs
        subst hs
        exact ⟨by simp only [Reader.asks, hm]; omega, Nat.le_add_right _ _⟩
    · rename_i msg l hm
      split at hs
      · simp at hs
      · rename_i s1 hp
        simp only [Outcome.ok.injEq] at hs
        obtain ⟨k, rfl, -⟩ := publish_eq hp
        subst hs
        exact ⟨by simp only [Reader.asks, hm]; omega, Nat.le_add_right _ _⟩
    · rename_i msg hm
      simp only [Outcome.ok.injEq] at hs
      subst hs
      obtain ⟨-, -, -, -, h5, -, h7, -, -, -, -, h12⟩ := finish_frame (cfg := cfg) s msg
      refine ⟨?_, by rw [h12, h7]; exact Nat.le_add_right _ _⟩
      rw [h12, h5, hm]
      have : (finish cfg s msg).answers.length ≤ s.answers.length + (!isAnswer msg.flags).toNat := by
        by_cases hc : answered cfg msg = true
        · simp only [finish, hc, if_true, List.length_append, List.length_singleton]
          simp only [answered, Bool.and_eq_true] at hc
          rw [hc.1]; simp
        · simp only [finish, hc]
          exact Nat.le_add_right _ _
      simp only [Reader.asks]
      omega
  | tick =>
    simp only [step] at hs
    split at hs <;> simp only [Outcome.ok.injEq, reduceCtorEq] at hs
    subst hs
    exact ⟨Nat.le_add_right _ _, by simp [Main.asks, Act.own]⟩
  | main key now ok =>
    simp only [step, mainStep] at hs
    split at hs
    · rename_i g hm
      split at hs <;> simp only [Outcome.ok.injEq, reduceCtorEq] at hs
      · rename_i s1 g' hg
        have f := genStep_frame hg
        subst hs
        refine ⟨?_, ?_⟩
        · simp only [f.sent, f.answers, f.reader]; omega
        · simp only [f.sent, Main.asks, hm]; omega
      · rename_i s1 hg
        have f := genStep_frame hg
        subst hs
        refine ⟨?_, ?_⟩
        · simp only [f.sent, f.answers, f.reader]; omega
        · simp only [f.sent, hm]
          split <;> simp only [Main.asks] <;> omega
    · rename_i hm
      split at hs <;> simp only [Outcome.ok.injEq, reduceCtorEq] at hs
      rename_i s1 hsp
      obtain ⟨h1, h2, h3, h4, h5⟩ := send hsp
      subst hs
      refine ⟨?_, ?_⟩
      · simp only [h3, h4, Bool.toNat_false] at h1 ⊢; omega
      · simp only [Main.asks, hm, Bool.not_false, Bool.toNat_true] at h2 ⊢; omega
    · simp at hs
  | retry ok =>
    simp only [step] at hs
    split at hs
    · split at hs <;> simp only [Outcome.ok.injEq, reduceCtorEq] at hs
      rename_i s1 hsp
      obtain ⟨h1, h2, h3, h4, h5⟩ := send hsp
      subst hs
      refine ⟨?_, ?_⟩
      · simp only [h3, h4, Bool.toNat_false] at h1 ⊢; omega
      · simp only [h5, Act.own, Bool.not_false, Bool.toNat_true] at h2 ⊢; omega
    · simp at hs
  | timeout =>
    simp only [step] at hs
    split at hs <;> simp only [Outcome.ok.injEq, reduceCtorEq] at hs
    subst hs
    exact ⟨Nat.le_add_right _ _, by simp only [Main.asks]; omega⟩
  | done =>
    simp only [step] at hs
    split at hs <;> simp only [Outcome.ok.injEq, reduceCtorEq] at hs
    subst hs
    exact ⟨Nat.le_add_right _ _, by simp only [Main.asks]; omega⟩
  | answer i key now ok =>
    simp only [step, answerStep] at hs
    split at hs
    · simp at hs
    · simp only [Outcome.ok.injEq] at hs
      subst hs
      exact ⟨by simp only [List.length_set]; omega, Nat.le_add_right _ _⟩
    · rename_i g hm
      split at hs <;> simp only [Outcome.ok.injEq, reduceCtorEq] at hs
      · rename_i s1 g' hg
        have f := genStep_frame hg
        subst hs
        refine ⟨?_, ?_⟩
        · simp only [f.sent, f.reader, List.length_set]; omega
        · simp only [f.sent, f.main]; omega
      · rename_i s1 hg
        have f := genStep_frame hg
        subst hs
        refine ⟨?_, ?_⟩
        · simp only [f.sent, f.reader, List.length_set]; omega
        · simp only [f.sent, f.main]; omega
    · rename_i hm
      split at hs <;> simp only [Outcome.ok.injEq, reduceCtorEq] at hs
      rename_i s1 hsp
      obtain ⟨h1, h2, h3, h4, h5⟩ := send hsp
      subst hs
      have hlt : i < s.answers.length := by
        rcases Nat.lt_or_ge i s.answers.length with h | h
        · exact h
        · rw [List.getElem?_eq_none h] at hm; simp at hm
      refine ⟨?_, ?_⟩
      · simp only [h4, List.length_eraseIdx, hlt, if_true, Bool.toNat_true] at h1 ⊢; omega
      · simp only [h5, Bool.not_true, Bool.toNat_false] at h2 ⊢; omega
  | cancel =>
    simp only [step, Outcome.ok.injEq] at hs
    subst hs
    exact ⟨Nat.le_add_right _ _, Nat.le_add_right _ _⟩

theorem counts_run {remote : Option Bytes} : ∀ (as : List Act) {s s' : State}, Reachable C cfg remote s →
    runActs C cfg s as = .ok s' →
    s'.sent.countP isAnswerMsg + s'.answers.length + s'.reader.asks ≤
      s.sent.countP isAnswerMsg + s.answers.length + s.reader.asks + as.countP Act.request ∧
    s'.sent.countP (!isAnswerMsg ·) + s'.main.asks ≤ s.sent.countP (!isAnswerMsg ·) + s.main.asks + as.countP Act.own := by
  intro as
  induction as with
  | nil => intro s s' _ h; simp only [runActs, Outcome.ok.injEq] at h; subst h; simp
  | cons a as ih =>
    intro s s' hr h
    simp only [runActs] at h
    split at h <;> try (simp at h; done)
    rename_i s1 h1
    have c := counts_step hr h1
    have i := ih (.step a hr h1) h
    have hb : ∀ b : Bool, (if b = true then 1 else 0) = b.toNat := by decide
    simp only [List.countP_cons, hb]
    have c1 := c.answers
    have c2 := c.requests
    omega

theorem received_requests (as : List Act) :
    as.countP Act.request = (received as).countP (fun b => decide (146 ≤ b.length) && !isAnswerMsg b) := by
  induction as with
  | nil => rfl
  | cons a as ih => cases a <;> simp [received, Act.request, List.countP_cons, ih]

theorem tries_own (as : List Act) : as.countP Act.own = tries as := by
  induction as with
  | nil => rfl
  | cons a as ih => cases a <;> simp [tries, Act.own, List.countP_cons, ih]

theorem sum_ge (l : List Bytes) (p : Bytes → Bool) :
    146 * l.countP (fun b => decide (146 ≤ b.length) && p b) ≤ ((l.filter p).map List.length).sum := by
  induction l with
  | nil => simp
  | cons b l ih =>
    simp only [List.countP_cons, List.filter_cons]
    by_cases hp : p b = true
    · by_cases hl : 146 ≤ b.length
      · simp only [hp, hl, decide_true, Bool.and_self, if_true, List.map_cons, List.sum_cons]; omega
      · simp only [hp, hl, decide_false, Bool.false_and, if_true, List.map_cons, List.sum_cons]
        simp only [Bool.false_eq_true, if_false]; omega
    · simp only [hp, Bool.and_false, Bool.false_eq_true, if_false]; omega

end Verif.KX

namespace Verif.Handshake

/-- How much a goroutine or message can still cause. -/
def Answer.weight : Answer → Nat
  | .start => 7
  | .check => 6
  | .make => 5
  | .skip => 4
  | .send => 3

def Main.weight : Main → Nat
  | .start => 13
  | .gen => 12
  | .send => 11
  | .waiting => 1
  | .idle => 0

def msgWeight (answer : Bool) : Nat := if answer then 2 else 9

def Side.weight (t : Side) : Nat := t.main.weight + t.notify.isSome.toNat + (t.answers.map Answer.weight).sum

def Sys.weight (s : Sys) : Nat :=
  s.a.weight + s.b.weight + (s.toA.map msgWeight).sum + (s.toB.map msgWeight).sum

theorem weight_put (s : Sys) (x : Bool) (t : Side) : (s.put x t).weight + (s.side x).weight = s.weight + t.weight := by
  cases x <;> simp only [Sys.put, Sys.weight, Sys.side] <;> omega

theorem weight_setInbox (s : Sys) (x : Bool) (l : List Bool) :
    (s.setInbox x l).weight + ((s.inbox x).map msgWeight).sum = s.weight + (l.map msgWeight).sum := by
  cases x <;> simp only [Sys.setInbox, Sys.weight, Sys.inbox] <;> omega

theorem weight_send (s : Sys) (x m : Bool) : (s.send x m).weight = s.weight + msgWeight m := by
  have := weight_setInbox s (!x) (s.inbox (!x) ++ [m])
  simp only [List.map_append, List.sum_append, List.map_cons, List.map_nil, List.sum_cons, List.sum_nil] at this
  unfold Sys.send
  omega

theorem sum_eraseIdx {α : Type} (f : α → Nat) : ∀ (l : List α) (i : Nat) (m : α), l[i]? = some m →
    ((l.eraseIdx i).map f).sum + f m = (l.map f).sum := by
  intro l
  induction l with
  | nil => intro i m h; simp at h
  | cons y l ih =>
    intro i m h
    cases i with
    | zero => simp at h; subst h; simp; omega
    | succ i =>
      simp only [List.getElem?_cons_succ] at h
      have := ih i m h
      simp only [List.eraseIdx_cons_succ, List.map_cons, List.sum_cons]
      omega

theorem sum_set {α : Type} (f : α → Nat) : ∀ (l : List α) (i : Nat) (m n : α), l[i]? = some m →
    ((l.set i n).map f).sum + f m = (l.map f).sum + f n := by
  intro l
  induction l with
  | nil => intro i m n h; simp at h
  | cons y l ih =>
    intro i m n h
    cases i with
    | zero => simp at h; subst h; simp; omega
    | succ i =>
      simp only [List.getElem?_cons_succ] at h
      have := ih i m n h
      simp only [List.set_cons_succ, List.map_cons, List.sum_cons]
      omega

theorem take_weight (t : Side) (h : t.main = .waiting) : t.take.weight ≤ t.weight ∧ (t.notify ≠ none → t.take.weight < t.weight) ∧
    (t.take.main = .idle → t.take.weight < t.weight) ∧ (t.take.main = .idle ∨ t.take.main = .waiting) := by
  unfold Side.take
  split
  · rename_i v hv
    simp only [Side.weight, hv, h, Option.isSome]
    split <;> simp [Main.weight] <;> omega
  · rename_i hv
    simp [hv, h]

theorem handle_weight (mode : Nat) (t : Side) (m : Bool) : (t.handle mode m).weight < t.weight + msgWeight m := by
  have hb : ∀ x : Option Nat, x.isSome.toNat ≤ 1 := by intro x; cases x <;> simp
  have := hb t.notify
  unfold Side.handle
  cases m <;> simp only [msgWeight, Bool.not_true, Bool.not_false, Bool.false_and, Bool.true_or, Bool.true_and, Bool.false_or]
  · split <;> split <;> simp [Side.weight, Answer.weight] <;> omega
  · simp [Side.weight]
    omega

theorem weight_step {mode : Nat} {s s' : Sys} {a : Act} (h : step mode s a = some s') :
    s'.weight + 1 ≤ s.weight + 14 * ticks [a] + 10 * retries [a] := by
  unfold step at h
  split at h
  · simp at h
  have put : ∀ {x : Bool} {t : Side}, t.weight < (s.side x).weight → (s.put x t).weight + 1 ≤ s.weight := by
    intro x t ht
    have := weight_put s x t
    omega
  cases a with
  | loop x skips now =>
    simp only [stepOpen, loopStep] at h
    split at h
    · rename_i hm
      simp only [Option.some.injEq] at h
      subst h
      refine put ?_
      split
      · simp only [Side.weight, hm, Main.weight]; omega
      · simp only [Side.weight, hm, Main.weight, Option.isSome, Bool.toNat_false]; omega
    · rename_i hm
      simp only [Option.some.injEq] at h
      subst h
      refine put ?_
      have : ((s.side x).updateLocalKey now).notify = (s.side x).notify ∧ ((s.side x).updateLocalKey now).answers = (s.side x).answers := by
        unfold Side.updateLocalKey Side.newKey
        split <;> exact ⟨rfl, rfl⟩
      simp only [Side.weight, hm, Main.weight, this.1, this.2]; omega
    · rename_i hm
      simp only [Option.some.injEq] at h
      subst h
      rw [weight_send]
      have := weight_put s x { s.side x with main := .waiting }
      simp only [Side.weight, hm, Main.weight, msgWeight] at this ⊢
      simp only [Bool.false_eq_true, if_false]
      omega
    · simp at h
  | retry x =>
    simp only [stepOpen] at h
    split at h <;> simp only [Option.some.injEq, reduceCtorEq] at h
    rename_i hm
    have ht := take_weight (s.side x) hm
    subst h
    simp only [ticks, retries]
    split
    · have := weight_put s x (s.side x).take; omega
    · rw [weight_send]
      have := weight_put s x (s.side x).take
      simp only [msgWeight, Bool.false_eq_true, if_false]
      omega
  | done x =>
    simp only [stepOpen] at h
    split at h <;> simp only [Option.some.injEq, reduceCtorEq] at h
    rename_i hm
    have ht := take_weight (s.side x) hm.1
    subst h
    exact put (ht.2.1 hm.2)
  | timeout x =>
    simp only [stepOpen] at h
    split at h <;> simp only [Option.some.injEq, reduceCtorEq] at h
    rename_i hm
    have ht := take_weight (s.side x) hm
    subst h
    refine put ?_
    split
    · rename_i hi; exact ht.2.2.1 hi
    · rename_i hi
      rcases ht.2.2.2 with h2 | h2
      · exact absurd h2 hi
      · have := ht.1
        simp only [Side.weight, h2, Main.weight] at this ⊢
        omega
  | tick x =>
    simp only [stepOpen] at h
    split at h <;> simp only [Option.some.injEq, reduceCtorEq] at h
    rename_i hm
    subst h
    have := weight_put s x { s.side x with main := .start }
    simp only [Side.weight, hm, Main.weight, ticks] at this ⊢
    omega
  | recv x i =>
    simp only [stepOpen] at h
    split at h <;> simp only [Option.some.injEq, reduceCtorEq] at h
    rename_i m hm
    subst h
    have h1 := weight_put (s.setInbox x ((s.inbox x).eraseIdx i)) x ((s.side x).handle mode m)
    have h2 := weight_setInbox s x ((s.inbox x).eraseIdx i)
    have h3 := sum_eraseIdx msgWeight (s.inbox x) i m hm
    have h4 := handle_weight mode (s.side x) m
    have h5 : ((s.setInbox x ((s.inbox x).eraseIdx i)).side x) = s.side x := by cases x <;> rfl
    rw [h5] at h1
    simp only [ticks, retries]
    omega
  | answer x i now =>
    simp only [stepOpen, answerStep] at h
    have wset : ∀ {o n : Answer} {t : Side}, (s.side x).answers[i]? = some o → n.weight < o.weight →
        t.main = (s.side x).main → t.notify = (s.side x).notify → t.answers = (s.side x).answers.set i n →
        (s.put x t).weight + 1 ≤ s.weight := by
      intro o n t ho hlt h1 h2 h3
      refine put ?_
      have := sum_set Answer.weight _ i o n ho
      simp only [Side.weight, h1, h2, h3]
      omega
    split at h
    · simp at h
    · rename_i ho
      simp only [Option.some.injEq] at h; subst h
      cases (s.side x).hasKey
      · exact wset ho (n := .check) (by decide) rfl rfl rfl
      · exact wset ho (n := .send) (by decide) rfl rfl rfl
    · rename_i ho
      simp only [Option.some.injEq] at h; subst h
      split
      · exact wset ho (n := .skip) (by decide) rfl rfl rfl
      · exact wset ho (n := .make) (by decide) rfl rfl rfl
    · rename_i ho
      simp only [Option.some.injEq] at h; subst h
      exact wset ho (n := .skip) (by decide) rfl rfl rfl
    · rename_i ho
      simp only [Option.some.injEq] at h; subst h
      exact wset ho (n := .send) (by decide) rfl rfl rfl
    · rename_i ho
      simp only [Option.some.injEq] at h; subst h
      rw [weight_send]
      have h1 := weight_put s x { s.side x with answers := (s.side x).answers.eraseIdx i }
      have h2 := sum_eraseIdx Answer.weight _ i _ ho
      simp only [Side.weight, Answer.weight, msgWeight, ticks, retries, if_true] at h1 h2 ⊢
      omega
  | lose x i =>
    simp only [stepOpen] at h
    split at h <;> simp only [Option.some.injEq, reduceCtorEq] at h
    rename_i hi
    subst h
    have h2 := weight_setInbox s x ((s.inbox x).eraseIdx i)
    have h3 := sum_eraseIdx msgWeight (s.inbox x) i _ (List.getElem?_eq_getElem hi)
    have : 2 ≤ msgWeight (s.inbox x)[i] := by unfold msgWeight; split <;> omega
    simp only [ticks, retries]
    omega

theorem ticks_cons (a : Act) (as : List Act) : ticks (a :: as) = ticks [a] + ticks as := by
  cases a <;> simp [ticks] <;> omega
theorem retries_cons (a : Act) (as : List Act) : retries (a :: as) = retries [a] + retries as := by
  cases a <;> simp [retries] <;> omega

theorem weight_run {mode : Nat} : ∀ (as : List Act) {s s' : Sys}, run mode s as = some s' →
    as.length + s'.weight ≤ s.weight + 14 * ticks as + 10 * retries as := by
  intro as
  induction as with
  | nil => intro s s' h; simp only [run, Option.some.injEq] at h; subst h; simp [ticks, retries]
  | cons a as ih =>
    intro s s' h
    simp only [run, Option.bind_eq_some_iff] at h
    obtain ⟨s1, h1, h2⟩ := h
    have := weight_step h1
    have := ih h2
    rw [ticks_cons, retries_cons]
    simp only [List.length_cons]
    omega

end Verif.Handshake

namespace Verif.Negotiator

def Reader.informs : Reader → Nat
  | .recv _ _ => 1
  | .control => 1
  | _ => 0

theorem deliver_step {cfg : Cfg} {s s' : State} {a : Act} (h : step cfg s a = .ok s') :
    (∃ l, s'.out.filterMap Msg.ponged = s.out.filterMap Msg.ponged ++ l ∧ l.Sublist ((delivered [a]).filterMap Msg.pinged)) ∧
    s'.out.countP Msg.isInfo + s'.reader.informs ≤
      s.out.countP Msg.isInfo + s.reader.informs + (delivered [a]).countP Msg.isPong := by
  have quiet : ∀ {t : State}, t.out = s.out → t.reader.informs ≤ s.reader.informs →
      (∃ l, t.out.filterMap Msg.ponged = s.out.filterMap Msg.ponged ++ l ∧ l.Sublist ((delivered [a]).filterMap Msg.pinged)) ∧
      t.out.countP Msg.isInfo + t.reader.informs ≤
        s.out.countP Msg.isInfo + s.reader.informs + (delivered [a]).countP Msg.isPong := by
    intro t h1 h2
    rw [h1]
    exact ⟨⟨[], by simp, List.nil_sublist _⟩, by omega⟩
  have other : ∀ {t : State} {w : Write} {m : Msg}, t.out = s.out ++ sent w m → m.ponged = none →
      m.isInfo.toNat + t.reader.informs ≤ s.reader.informs →
      (∃ l, t.out.filterMap Msg.ponged = s.out.filterMap Msg.ponged ++ l ∧ l.Sublist ((delivered [a]).filterMap Msg.pinged)) ∧
      t.out.countP Msg.isInfo + t.reader.informs ≤
        s.out.countP Msg.isInfo + s.reader.informs + (delivered [a]).countP Msg.isPong := by
    intro t w m h1 h2 h3
    rw [h1]
    refine ⟨⟨[], ?_, List.nil_sublist _⟩, ?_⟩
    · unfold sent; split <;> simp [h2]
    · unfold sent
      split
      · simp only [List.countP_append, List.countP_singleton]
        revert h3
        cases m.isInfo <;> simp <;> omega
      · simp only [List.append_nil]; omega
  cases a with
  | start enabled =>
    simp only [step, start] at h
    repeat' split at h
    all_goals simp only [Outcome.ok.injEq, reduceCtorEq] at h
    all_goals (subst h; exact quiet rfl (Nat.le_refl _))
  | pinger e =>
    simp only [step, pingerStep] at h
    repeat' split at h
    all_goals simp only [Outcome.ok.injEq, reduceCtorEq] at h
    all_goals subst h
    all_goals first
      | exact quiet rfl (Nat.le_refl _)
      | exact other rfl rfl (by simp [Msg.isInfo])
  | fin e =>
    simp only [step, finStep] at h
    repeat' split at h
    all_goals simp only [Outcome.ok.injEq, reduceCtorEq] at h
    all_goals (subst h; exact quiet rfl (by simp only [Reader.informs]; omega))
  | deliver m w =>
    simp only [step, deliver] at h
    split at h
    · simp at h
    rename_i hi
    simp only [ne_eq, Decidable.not_not] at hi
    split at h
    · simp only [Outcome.ok.injEq] at h; subst h; exact quiet rfl (Nat.le_refl _)
    · rename_i size iter
      simp only [Outcome.ok.injEq] at h; subst h
      refine ⟨?_, ?_⟩
      · by_cases hw : w = .ok
        · exact ⟨[(size, iter)], by simp [sent, hw, Msg.ponged], by simp [delivered, Msg.pinged]⟩
        · exact ⟨[], by simp [sent, hw], List.nil_sublist _⟩
      · by_cases hw : w = .ok <;> simp [sent, hw, Msg.isInfo]
    · split at h <;> simp only [Outcome.ok.injEq, reduceCtorEq] at h
      · subst h
        exact ⟨⟨[], by simp, List.nil_sublist _⟩, by simp [delivered, Msg.isPong, Reader.informs, hi]⟩
      · subst h
        exact ⟨⟨[], by simp, List.nil_sublist _⟩, by simp [delivered, Msg.isPong, Reader.informs, hi]⟩
    · split at h <;> simp only [Outcome.ok.injEq] at h <;> subst h
      · exact quiet rfl (by simp [Reader.informs])
      · exact quiet rfl (Nat.le_refl _)
  | reader w =>
    simp only [step, readerStep] at h
    split at h
    · rename_i size iter hm
      repeat' split at h
      all_goals simp only [Outcome.ok.injEq, reduceCtorEq] at h
      subst h
      exact quiet rfl (by simp [Reader.informs, hm])
    · rename_i hm
      simp only [Outcome.ok.injEq] at h
      subst h
      exact other rfl rfl (by simp [Msg.isInfo, Reader.informs, hm])
    · simp at h
  | closeCall =>
    simp only [step] at h
    split at h <;> simp only [Outcome.ok.injEq] at h <;> subst h <;> exact quiet rfl (Nat.le_refl _)
  | closer =>
    simp only [step, closerStep] at h
    repeat' split at h
    all_goals simp only [Outcome.ok.injEq, reduceCtorEq] at h
    all_goals (subst h; exact quiet rfl (Nat.le_refl _))
  | cancel =>
    simp only [step, Outcome.ok.injEq] at h
    subst h; exact quiet rfl (Nat.le_refl _)

theorem delivered_cons (a : Act) (as : List Act) : delivered (a :: as) = delivered [a] ++ delivered as := by
  cases a <;> rfl

theorem deliver_run {cfg : Cfg} : ∀ (as : List Act) {s s' : State}, runActs cfg s as = .ok s' →
    (∃ l, s'.out.filterMap Msg.ponged = s.out.filterMap Msg.ponged ++ l ∧ l.Sublist ((delivered as).filterMap Msg.pinged)) ∧
    s'.out.countP Msg.isInfo + s'.reader.informs ≤
      s.out.countP Msg.isInfo + s.reader.informs + (delivered as).countP Msg.isPong := by
  intro as
  induction as with
  | nil =>
    intro s s' h
    simp only [runActs, Outcome.ok.injEq] at h
    subst h
    exact ⟨⟨[], by simp, List.nil_sublist _⟩, Nat.le_add_right _ _⟩
  | cons a as ih =>
    intro s s' h
    simp only [runActs] at h
    split at h <;> try (simp at h; done)
    rename_i s1 h1
    obtain ⟨⟨l1, e1, u1⟩, c1⟩ := deliver_step h1
    obtain ⟨⟨l2, e2, u2⟩, c2⟩ := ih h
    rw [delivered_cons]
    refine ⟨⟨l1 ++ l2, by rw [e2, e1, List.append_assoc], ?_⟩, ?_⟩
    · rw [List.filterMap_append]; exact u1.append u2
    · rw [List.countP_append]; omega

end Verif.Negotiator
