import Verif.Lemmas.KeyExchange
/-!
# Lemmas about the secrets passed to the session, and about crashes of the key exchanger
-/
namespace Verif.KX
open Verif.Headers

variable {C : Crypto} {cfg : Cfg} {remote : Option Bytes}

/-- Secrets which were computed and not yet passed on. -/
def Pending (s : State) (l : List (Option Bytes)) : Prop :=
  (∃ msg, s.reader = .publish msg l) ∨ s.main = .gen (.publish l) ∨ .gen (.publish l) ∈ s.answers

/-- `l` was computed from the keys which the exchanger had at some earlier time of the run that led to `s`. -/
def Taken (C : Crypto) (cfg : Cfg) (remote : Option Bytes) (s : State) (l : List (Option Bytes)) : Prop :=
  ∃ s0 as, Reachable C cfg remote s0 ∧ runActs C cfg s0 as = .ok s ∧ secrets C cfg.psk s0.keys = some l

theorem runActs_snoc : ∀ (as : List Act) {s s1 s' : State} {a : Act}, runActs C cfg s as = .ok s1 →
    step C cfg s1 a = .ok s' → runActs C cfg s (as ++ [a]) = .ok s' := by
  intro as
  induction as with
  | nil => intro s s1 s' a h1 h2; simp only [runActs, Outcome.ok.injEq] at h1; subst h1; simp [runActs, h2]
  | cons b as ih =>
    intro s s1 s' a h1 h2
    simp only [runActs] at h1
    split at h1 <;> try (simp only [reduceCtorEq] at h1; done)
    rename_i s2 hs2
    simp only [List.cons_append, runActs, hs2]
    exact ih h1 h2

theorem Taken.step {s s' : State} {a : Act} {l : List (Option Bytes)} (h : Taken C cfg remote s l)
    (hs : step C cfg s a = .ok s') : Taken C cfg remote s' l := by
  obtain ⟨s0, as, h1, h2, h3⟩ := h
  exact ⟨s0, as ++ [a], h1, runActs_snoc as h2 hs, h3⟩

/-- What a step of `updateLocalKey` does with the secrets. -/
theorem genStep_sess {s s' : State} {key : Option Bytes} {now : Nat} {g : Gen} {o : Option Gen}
    (h : genStep C cfg s key now g = .ok (s', o)) :
    (s'.sess = s.sess ∨ ∃ l, g = .publish l ∧ setSecrets s.sess l = some s'.sess ∧ (l[0]?).join.getD [] ≠ []) ∧
    (∀ l, o = some (.publish l) → secrets C cfg.psk s.keys = some l ∧ s'.keys = s.keys) := by
  cases g with
  | check =>
    simp only [genStep, Outcome.ok.injEq, Prod.mk.injEq] at h
    refine ⟨.inl (by rw [← h.1]), fun l hl => ?_⟩
    rw [← h.2] at hl
    split at hl <;> simp at hl
  | gen =>
    simp only [genStep] at h
    split at h <;> simp only [Outcome.ok.injEq, Prod.mk.injEq] at h <;>
      exact ⟨.inl (by rw [← h.1]), fun l hl => by rw [← h.2] at hl; simp at hl⟩
  | snapshot =>
    simp only [genStep] at h
    split at h <;> simp only [Outcome.ok.injEq, Prod.mk.injEq, reduceCtorEq] at h
    rename_i l hl
    refine ⟨.inl (by rw [← h.1]), fun l' hl' => ?_⟩
    rw [← h.2] at hl'
    simp only [Option.some.injEq, Gen.publish.injEq] at hl'
    subst hl'
    exact ⟨hl, by rw [← h.1]⟩
  | publish l =>
    simp only [genStep] at h
    split at h <;> simp only [Outcome.ok.injEq, Prod.mk.injEq, reduceCtorEq] at h
    rename_i s1 hp
    obtain ⟨k, hk, hk2⟩ := publish_eq hp
    refine ⟨?_, fun l hl => by rw [← h.2] at hl; simp at hl⟩
    rw [← h.1, hk]
    rcases hk2 with hk2 | hk2
    · exact .inl hk2.1
    · exact .inr ⟨l, rfl, hk2⟩

/-- What a step does with the secrets. -/
structure SessStep (C : Crypto) (cfg : Cfg) (s s' : State) : Prop where
  sess : s'.sess = s.sess ∨ ∃ l, Pending s l ∧ setSecrets s.sess l = some s'.sess ∧ (l[0]?).join.getD [] ≠ []
  pending : ∀ l, Pending s' l → Pending s l ∨ (secrets C cfg.psk s.keys = some l ∧ s'.keys = s.keys)

theorem SessStep.same {s s' : State} (h1 : s'.sess = s.sess) (h2 : ∀ l, Pending s' l → Pending s l) : SessStep C cfg s s' :=
  ⟨.inl h1, fun l hl => .inl (h2 l hl)⟩

theorem sessStep_main {s s1 : State} {key : Option Bytes} {now : Nat} {g : Gen} {o : Option Gen}
    (hm : s.main = .gen g) (h : genStep C cfg s key now g = .ok (s1, o)) (m : Main)
    (hmo : ∀ l, m = .gen (.publish l) → o = some (.publish l)) : SessStep C cfg s { s1 with main := m } := by
  have hf := genStep_frame h
  obtain ⟨h1, h2⟩ := genStep_sess h
  constructor
  · rcases h1 with h1 | ⟨l, hl, h1⟩
    · exact .inl h1
    · exact .inr ⟨l, .inr (.inl (by rw [hm, hl])), h1⟩
  · rintro l (⟨msg, hl⟩ | hl | hl)
    · exact .inl (.inl ⟨msg, by rw [← hf.reader]; exact hl⟩)
    · exact .inr (h2 l (hmo l hl))
    · exact .inl (.inr (.inr (by rw [← hf.answers]; exact hl)))

theorem mem_set_answers {as : List Answer} {i : Nat} {x y : Answer} (h : y ∈ as.set i x) : y ∈ as ∨ y = x := by
  rcases List.mem_or_eq_of_mem_set h with h | h
  · exact .inl h
  · exact .inr h

theorem sessStep {s s' : State} {a : Act} (h : step C cfg s a = .ok s') : SessStep C cfg s s' := by
  cases a with
  | recv b =>
    simp only [step] at h
    split at h
    · rename_i hrd
      split at h <;> simp only [Outcome.ok.injEq, reduceCtorEq] at h <;> subst h
      · refine .same rfl fun l hl => ?_
        rcases hl with ⟨msg, hl⟩ | hl | hl
        · simp at hl
        · exact .inr (.inl hl)
        · exact .inr (.inr hl)
      · exact .same rfl fun l hl => hl
    · simp at h
  | reader =>
    simp only [step, readerStep] at h
    split at h
    · simp at h
    · rename_i b msg hrd
      split at h
      · simp at h
      · simp only [Outcome.ok.injEq] at h; subst h
        unfold enter
        split
        · refine .same rfl fun l hl => ?_
          rcases hl with ⟨msg, hl⟩ | hl | hl
          · simp at hl
          · exact .inr (.inl hl)
          · exact .inr (.inr hl)
        · split
          · refine .same rfl fun l hl => ?_
            rcases hl with ⟨msg, hl⟩ | hl | hl
            · simp at hl
            · exact .inr (.inl hl)
            · exact .inr (.inr hl)
          · refine .same rfl fun l hl => ?_
            rcases hl with ⟨msg, hl⟩ | hl | hl
            · simp at hl
            · exact .inr (.inl hl)
            · exact .inr (.inr hl)
    · rename_i msg hrd
      split at h <;> simp only [Outcome.ok.injEq, reduceCtorEq] at h
      rename_i l hl
      subst h
      refine ⟨.inl rfl, fun l' hl' => ?_⟩
      rcases hl' with ⟨msg', hl'⟩ | hl' | hl'
      · simp only [Reader.publish.injEq] at hl'
        rw [← hl'.2]
        exact .inr ⟨hl, rfl⟩
      · exact .inl (.inr (.inl hl'))
      · exact .inl (.inr (.inr hl'))
    · rename_i msg l hrd
      split at h <;> simp only [Outcome.ok.injEq, reduceCtorEq] at h
      rename_i s1 hp
      obtain ⟨k, hk, hk2⟩ := publish_eq hp
      subst h; subst hk
      constructor
      · rcases hk2 with hk2 | hk2
        · exact .inl hk2.1
        · exact .inr ⟨l, .inl ⟨msg, hrd⟩, hk2⟩
      · intro l' hl'
        rcases hl' with ⟨msg', hl'⟩ | hl' | hl'
        · simp at hl'
        · exact .inl (.inr (.inl hl'))
        · exact .inl (.inr (.inr hl'))
    · rename_i msg hrd
      simp only [Outcome.ok.injEq] at h; subst h
      obtain ⟨f1, f2, f3, f4, f5, f6, f7, _⟩ := finish_frame (cfg := cfg) s msg
      refine .same f6 fun l hl => ?_
      rcases hl with ⟨msg', hl⟩ | hl | hl
      · rw [f5] at hl; simp at hl
      · rw [f7] at hl; exact .inr (.inl hl)
      · refine .inr (.inr ?_)
        simp only [finish] at hl
        split at hl
        · simpa using hl
        · exact hl
  | tick =>
    simp only [step] at h
    split at h <;> simp only [Outcome.ok.injEq, reduceCtorEq] at h
    subst h
    refine .same rfl fun l hl => ?_
    rcases hl with hl | hl | hl
    · exact .inl hl
    · simp at hl
    · exact .inr (.inr hl)
  | main key now ok =>
    simp only [step, mainStep] at h
    split at h
    · rename_i g hm
      split at h <;> simp only [Outcome.ok.injEq, reduceCtorEq] at h
      · rename_i hg; subst h; exact sessStep_main hm hg _ (fun l hl => by simpa using hl)
      · rename_i hg; subst h; exact sessStep_main hm hg _ (fun l hl => by split at hl <;> simp at hl)
    · split at h <;> simp only [Outcome.ok.injEq, reduceCtorEq] at h
      rename_i hg; subst h
      rcases sendPublicKey_ok hg with ⟨p, _, rfl⟩ | rfl <;>
      · refine .same rfl fun l hl => ?_
        rcases hl with hl | hl | hl
        · exact .inl hl
        · simp at hl
        · exact .inr (.inr hl)
    · simp at h
  | retry ok =>
    simp only [step] at h
    split at h
    · split at h <;> simp only [Outcome.ok.injEq, reduceCtorEq] at h
      rename_i hg; subst h
      rcases sendPublicKey_ok hg with ⟨p, _, rfl⟩ | rfl <;> exact .same rfl fun l hl => hl
    · simp at h
  | timeout =>
    simp only [step] at h
    split at h <;> simp only [Outcome.ok.injEq, reduceCtorEq] at h
    subst h
    refine .same rfl fun l hl => ?_
    rcases hl with hl | hl | hl
    · exact .inl hl
    · simp at hl
    · exact .inr (.inr hl)
  | done =>
    simp only [step] at h
    split at h <;> simp only [Outcome.ok.injEq, reduceCtorEq] at h
    subst h
    refine .same rfl fun l hl => ?_
    rcases hl with hl | hl | hl
    · exact .inl hl
    · simp at hl
    · exact .inr (.inr hl)
  | answer i key now ok =>
    simp only [step, answerStep] at h
    split at h
    · simp at h
    · rename_i hi
      simp only [Outcome.ok.injEq] at h; subst h
      refine .same rfl fun l hl => ?_
      rcases hl with hl | hl | hl
      · exact .inl hl
      · exact .inr (.inl hl)
      · rcases mem_set_answers hl with hl | hl
        · exact .inr (.inr hl)
        · split at hl <;> simp at hl
    · rename_i g hi
      have hmem : Answer.gen g ∈ s.answers := List.mem_of_getElem? hi
      have aux : ∀ {s1 : State} {o : Option Gen} (x : Answer), genStep C cfg s key now g = .ok (s1, o) →
          (∀ l, x = .gen (.publish l) → o = some (.publish l)) →
          SessStep C cfg s { s1 with answers := s.answers.set i x } := by
        intro s1 o x hg hx
        have hf := genStep_frame hg
        obtain ⟨h1, h2⟩ := genStep_sess hg
        constructor
        · rcases h1 with h1 | ⟨l, hl, h1⟩
          · exact .inl h1
          · exact .inr ⟨l, .inr (.inr (by rw [← hl]; exact hmem)), h1⟩
        · rintro l (⟨msg, hl⟩ | hl | hl)
          · exact .inl (.inl ⟨msg, by rw [← hf.reader]; exact hl⟩)
          · exact .inl (.inr (.inl (by rw [← hf.main]; exact hl)))
          · rcases mem_set_answers hl with hl | hl
            · exact .inl (.inr (.inr hl))
            · exact .inr (h2 l (hx l hl.symm))
      split at h <;> simp only [Outcome.ok.injEq, reduceCtorEq] at h
      · rename_i hg; subst h; exact aux _ hg (fun l hl => by simpa using hl)
      · rename_i hg; subst h; exact aux _ hg (fun l hl => by simp at hl)
    · split at h <;> simp only [Outcome.ok.injEq, reduceCtorEq] at h
      rename_i hg; subst h
      rcases sendPublicKey_ok hg with ⟨p, _, rfl⟩ | rfl <;>
      · refine .same rfl fun l hl => ?_
        rcases hl with hl | hl | hl
        · exact .inl hl
        · exact .inr (.inl hl)
        · exact .inr (.inr (List.mem_of_mem_eraseIdx hl))
  | cancel => simp only [step, Outcome.ok.injEq] at h; subst h; exact .same rfl fun l hl => hl

/-- Everything pending was taken from the keys of an earlier state. -/
theorem pending_taken {s : State} (h : Reachable C cfg remote s) : ∀ l, Pending s l → Taken C cfg remote s l := by
  induction h with
  | init => rintro l (⟨_, h⟩ | h | h) <;> simp [State.init] at h
  | @step s s' a hr hs ih =>
    intro l hl
    rcases (sessStep hs).pending l hl with hl | ⟨hl, hk⟩
    · exact (ih l hl).step hs
    · exact ⟨s, [a], hr, by simp [runActs, hs], hl⟩

theorem secret_key {psk : Option Bytes} {k : Keys} {id : Nat} {x : Bytes} (h : secret C psk k id = some (some x)) :
    x.length = 32 := by
  unfold secret at h
  split at h <;> simp only [Option.some.injEq, reduceCtorEq] at h
  rename_i y hy
  subst h
  unfold generateSharedKey at hy
  repeat' split at hy
  all_goals simp only [Outcome.ok.injEq, reduceCtorEq] at hy
  · rw [← hy]; exact C.dh_length ..
  · rw [← hy]; simp [xorBytes, hash, C.dh_length, C.sha3_length]

theorem secrets_eq {psk : Option Bytes} {k : Keys} {l : List (Option Bytes)} (h : secrets C psk k = some l) :
    ∃ a b c d, l = [a, b, c, d] ∧ secret C psk k 0 = some a ∧ secret C psk k 1 = some b ∧ secret C psk k 2 = some c ∧
      secret C psk k 3 = some d := by
  unfold secrets at h
  split at h <;> simp only [Option.some.injEq, reduceCtorEq] at h
  exact ⟨_, _, _, _, h.symm, by assumption, by assumption, by assumption, by assumption⟩

/-- The keys given to the session are the whole secrets. -/
theorem secrets_map {psk : Option Bytes} {k : Keys} {l : List (Option Bytes)} (h : secrets C psk k = some l) :
    l.map cipherKey = l := by
  obtain ⟨a, b, c, d, rfl, ha, hb, hc, hd⟩ := secrets_eq h
  have aux : ∀ (i : Nat) (x : Option Bytes), secret C psk k i = some x → cipherKey x = x := by
    intro i x hx
    cases x with
    | none => rfl
    | some y => simp only [cipherKey, Option.map_some]; rw [List.take_of_length_le (by rw [secret_key hx]; omega)]
  simp [aux 0 a ha, aux 1 b hb, aux 2 c hc, aux 3 d hd]

/-- No key is empty. -/
theorem secrets_ne {psk : Option Bytes} {k : Keys} {l : List (Option Bytes)} (h : secrets C psk k = some l) :
    ∀ x ∈ l, x ≠ some [] := by
  obtain ⟨a, b, c, d, rfl, ha, hb, hc, hd⟩ := secrets_eq h
  have aux : ∀ (i : Nat) (x : Option Bytes), secret C psk k i = some x → x ≠ some [] := by
    intro i x hx he
    subst he
    have := secret_key hx
    simp at this
  intro x hx
  simp only [List.mem_cons, List.not_mem_nil, or_false] at hx
  rcases hx with rfl | rfl | rfl | rfl
  · exact aux 0 _ ha
  · exact aux 1 _ hb
  · exact aux 2 _ hc
  · exact aux 3 _ hd

/-- No change means the same keys. -/
theorem changedCount_zero : ∀ (new old : List (Option Bytes)) (idx : Nat), changedCount old idx new = 0 →
    (∀ x ∈ new, x ≠ some []) → (∀ x ∈ old, x ≠ some []) → ∀ i, i < new.length → old[idx + i]? = new[i]? := by
  intro new
  induction new with
  | nil => intro old idx _ _ _ i hi; simp at hi
  | cons n new ih =>
    intro old idx h h1 h2 i hi
    simp only [changedCount] at h
    have hn : keyChanged old idx n = false := by
      cases hk : keyChanged old idx n with
      | false => rfl
      | true => simp [hk] at h
    cases i with
    | zero =>
      simp only [keyChanged] at hn
      split at hn
      · simp at hn
      · rename_i o ho
        simp only [Nat.add_zero, List.getElem?_cons_zero, ho, Option.some.injEq]
        have ho1 := h2 o (List.mem_of_getElem? ho)
        have hn1 := h1 n (by simp)
        simp only [bne_eq_false_iff_eq] at hn
        cases o with
        | none =>
          cases n with
          | none => rfl
          | some y => simp only [Option.getD_none, Option.getD_some] at hn; subst hn; simp at hn1
        | some z =>
          cases n with
          | none => simp only [Option.getD_none, Option.getD_some] at hn; subst hn; simp at ho1
          | some y => simp only [Option.getD_some] at hn; rw [hn]
    | succ i =>
      have := ih old (idx + 1) (by omega) (fun x hx => h1 x (List.mem_cons_of_mem _ hx)) h2 i (by simpa using hi)
      rw [show idx + (i + 1) = idx + 1 + i by omega, List.getElem?_cons_succ]
      exact this

/-- The session's keys. -/
structure SessOK (C : Crypto) (cfg : Cfg) (remote : Option Bytes) (s : State) : Prop where
  keys : (s.sess.cipherKeys = [] ∧ s.sess.chanClosed = false ∧ s.sess.closes = 0) ∨
    (∃ l x, Taken C cfg remote s l ∧ s.sess.cipherKeys = l ∧ l.length = 4 ∧ l[0]? = some (some x) ∧ x.length = 32 ∧
      s.sess.chanClosed = true ∧ s.sess.closes = 1)

/-- What `setSecrets` does with secrets computed by `updateSecrets`. -/
theorem setSecrets_taken {psk : Option Bytes} {k : Keys} {l : List (Option Bytes)} {t : SessKeys}
    (hl : secrets C psk k = some l) (h0 : (l[0]?).join.getD [] ≠ [])
    (ht : (t.cipherKeys = [] ∧ t.chanClosed = false ∧ t.closes = 0) ∨
      (t.cipherKeys.length = 4 ∧ (∀ x ∈ t.cipherKeys, x ≠ some []) ∧ t.chanClosed = true ∧ t.closes = 1)) :
    setSecrets t l = some ⟨l, true, 1⟩ := by
  have hlen : l.length = 4 := by obtain ⟨a, b, c, d, rfl, _⟩ := secrets_eq hl; rfl
  have hmap := secrets_map hl
  have hne := secrets_ne hl
  unfold setSecrets
  simp only [hmap, hlen, if_true]
  rcases ht with ⟨h1, h2, h3⟩ | ⟨h1, h2, h3, h4⟩
  · have hc : changedCount t.cipherKeys 0 l ≠ 0 := by
      intro hc
      have := changedCount_zero l t.cipherKeys 0 hc hne (by simp [h1]) 0 (by omega)
      rw [h1] at this
      simp only [Nat.add_zero, List.getElem?_nil] at this
      rw [← this] at h0
      simp at h0
    rw [if_neg hc, h2]
    simp [h3]
  · by_cases hc : changedCount t.cipherKeys 0 l = 0
    · rw [if_pos hc]
      have := changedCount_zero l t.cipherKeys 0 hc hne h2
      have he : t.cipherKeys = l := by
        apply List.ext_getElem?
        intro i
        by_cases hi : i < l.length
        · have := this i hi; simpa using this
        · rw [List.getElem?_eq_none (by omega), List.getElem?_eq_none (by omega)]
      obtain ⟨tk, tc, tn⟩ := t
      simp only at he h3 h4
      rw [he, h3, h4]
    · rw [if_neg hc, h3]
      simp [h4]

theorem first_key {psk : Option Bytes} {k : Keys} {l : List (Option Bytes)} (hl : secrets C psk k = some l)
    (h0 : (l[0]?).join.getD [] ≠ []) : ∃ x, l[0]? = some (some x) ∧ x.length = 32 := by
  obtain ⟨a, b, c, d, rfl, ha, _⟩ := secrets_eq hl
  cases a with
  | none => simp at h0
  | some x => exact ⟨x, rfl, secret_key ha⟩

theorem SessOK.pre {s : State} (h : SessOK C cfg remote s) :
    (s.sess.cipherKeys = [] ∧ s.sess.chanClosed = false ∧ s.sess.closes = 0) ∨
      (s.sess.cipherKeys.length = 4 ∧ (∀ x ∈ s.sess.cipherKeys, x ≠ some []) ∧ s.sess.chanClosed = true ∧ s.sess.closes = 1) := by
  rcases h.keys with h | ⟨l, x, ⟨s0, as, _, _, ht⟩, h1, h2, _, _, h3, h4⟩
  · exact .inl h
  · exact .inr ⟨by rw [h1]; exact h2, by rw [h1]; exact secrets_ne ht, h3, h4⟩

theorem sessOK_reachable {s : State} (h : Reachable C cfg remote s) : SessOK C cfg remote s := by
  induction h with
  | init => exact ⟨.inl ⟨rfl, rfl, rfl⟩⟩
  | @step s s' a hr hs ih =>
    rcases (sessStep hs).sess with he | ⟨l, hp, hset, h0⟩
    · constructor
      rw [he]
      rcases ih.keys with h | ⟨l, x, ht, hrest⟩
      · exact .inl h
      · exact .inr ⟨l, x, ht.step hs, hrest⟩
    · have ht := pending_taken hr l hp
      have ht' := ht
      obtain ⟨s0, as, _, _, hl⟩ := ht'
      rw [setSecrets_taken hl h0 ih.pre, Option.some.injEq] at hset
      obtain ⟨x, hx, hx2⟩ := first_key hl h0
      refine ⟨.inr ⟨l, x, ht.step hs, by rw [← hset], ?_, hx, hx2, by rw [← hset], by rw [← hset]⟩⟩
      obtain ⟨a, b, c, d, rfl, _⟩ := secrets_eq hl; rfl

/-! ## Crashes -/

/-- Where a public key must be there. -/
def Gen.late : Gen → Bool
  | .snapshot => true
  | .publish _ => true
  | _ => false

structure PubOK (s : State) : Prop where
  fresh : s.nextPub = none → s.nextCreated = 0
  mainGen : ∀ g, s.main = .gen g → g.late = true → s.nextPub ≠ none
  mainSend : s.main = .send ∨ s.main = .waiting → s.nextPub ≠ none
  ansGen : ∀ g, .gen g ∈ s.answers → g.late = true → s.nextPub ≠ none
  ansSend : .send ∈ s.answers → s.nextPub ≠ none ∨ .genFailed ∈ s.reports

/-- What a step of `updateLocalKey` does with the public key. -/
theorem genStep_pub {s s' : State} {key : Option Bytes} {now : Nat} {g : Gen} {o : Option Gen}
    (h : genStep C cfg s key now g = .ok (s', o)) (hn : s.nextPub = none → s.nextCreated = 0)
    (hl : g.late = true → s.nextPub ≠ none) :
    (s'.nextPub = s.nextPub ∨ s'.nextPub ≠ none) ∧ (s'.nextPub = none → s'.nextCreated = 0) ∧
    (∀ g', o = some g' → g'.late = true → s'.nextPub ≠ none) ∧
    (o = none → s'.nextPub ≠ none ∨ (g = .gen ∧ .genFailed ∈ s'.reports)) ∧
    (∀ r, r ∈ s.reports → r ∈ s'.reports) := by
  cases g with
  | check =>
    simp only [genStep, Outcome.ok.injEq, Prod.mk.injEq] at h
    obtain ⟨rfl, rfl⟩ := h
    refine ⟨.inl rfl, hn, fun g' hg' => ?_, fun ho => ?_, fun _ hr => hr⟩
    · split at hg' <;> simp only [Option.some.injEq, reduceCtorEq] at hg'
      subst hg'; simp [Gen.late]
    · split at ho
      · rename_i hlt
        exact .inl fun hp => by have := hn hp; omega
      · simp at ho
  | gen =>
    simp only [genStep] at h
    split at h <;> simp only [Outcome.ok.injEq, Prod.mk.injEq] at h <;> obtain ⟨rfl, rfl⟩ := h
    · exact ⟨.inl rfl, hn, fun g' hg' => by simp at hg', fun _ => .inr ⟨rfl, by simp⟩, fun r hr => by simp [hr]⟩
    · exact ⟨.inr (by simp), by simp, fun g' _ _ => by simp, fun ho => by simp at ho, fun _ hr => hr⟩
  | snapshot =>
    simp only [genStep] at h
    split at h <;> simp only [Outcome.ok.injEq, Prod.mk.injEq, reduceCtorEq] at h
    obtain ⟨rfl, rfl⟩ := h
    exact ⟨.inl rfl, hn, fun g' _ _ => hl rfl, fun ho => by simp at ho, fun _ hr => hr⟩
  | publish l =>
    simp only [genStep] at h
    split at h <;> simp only [Outcome.ok.injEq, Prod.mk.injEq, reduceCtorEq] at h
    obtain ⟨rfl, rfl⟩ := h
    rename_i s1 hp
    obtain ⟨k, hk, _⟩ := publish_eq hp
    subst hk
    exact ⟨.inl rfl, hn, fun g' hg' => by simp at hg', fun _ => .inl (hl rfl), fun _ hr => hr⟩

theorem PubOK.step {s s' : State} {a : Act} (h : PubOK s) (hs : step C cfg s a = .ok s') : PubOK s' := by
  obtain ⟨h1, h2, h3, h4, h5⟩ := h
  cases a with
  | recv b =>
    simp only [KX.step] at hs
    split at hs
    · split at hs <;> simp only [Outcome.ok.injEq, reduceCtorEq] at hs <;> subst hs
      · exact ⟨h1, h2, h3, h4, h5⟩
      · exact ⟨h1, h2, h3, h4, fun hm => (h5 hm).imp id (fun h => by simp [h])⟩
    · simp at hs
  | reader =>
    simp only [KX.step, readerStep] at hs
    split at hs
    · simp at hs
    · split at hs
      · simp at hs
      · simp only [Outcome.ok.injEq] at hs; subst hs
        unfold enter
        repeat' split
        all_goals exact ⟨h1, h2, h3, h4, h5⟩
    · split at hs <;> simp only [Outcome.ok.injEq, reduceCtorEq] at hs
      subst hs; exact ⟨h1, h2, h3, h4, h5⟩
    · split at hs <;> simp only [Outcome.ok.injEq, reduceCtorEq] at hs
      rename_i s1 hp
      obtain ⟨k, hk, _⟩ := publish_eq hp
      subst hs; subst hk; exact ⟨h1, h2, h3, h4, h5⟩
    · rename_i msg _
      simp only [Outcome.ok.injEq] at hs; subst hs
      obtain ⟨f1, f2, f3, f4, f5, f6, f7, f8, f9, f10, f11, _⟩ := finish_frame (cfg := cfg) s msg
      have fa : ∀ x, x ∈ (finish cfg s msg).answers → x ∈ s.answers ∨ x = .start := by
        intro x hx
        simp only [finish] at hx
        split at hx
        · simpa using hx
        · exact .inl hx
      refine ⟨by rw [f8, f9]; exact h1, by rw [f7, f8]; exact h2, by rw [f7, f8]; exact h3, ?_, ?_⟩
      · intro g hg hl
        rw [f8]
        rcases fa _ hg with hg | hg
        · exact h4 g hg hl
        · simp at hg
      · intro hg
        rw [f8, f11]
        rcases fa _ hg with hg | hg
        · exact h5 hg
        · simp at hg
  | tick =>
    simp only [KX.step] at hs
    split at hs <;> simp only [Outcome.ok.injEq, reduceCtorEq] at hs
    subst hs
    exact ⟨h1, fun g hg hl => by simp only [Main.gen.injEq] at hg; subst hg; simp [Gen.late] at hl,
      fun hm => by simp at hm, h4, h5⟩
  | main key now ok =>
    simp only [KX.step, mainStep] at hs
    split at hs
    · rename_i g hm
      have aux : ∀ {s1 : State} {o : Option Gen} (m : Main), genStep C cfg s key now g = .ok (s1, o) →
          (∀ g', m = .gen g' → o = some g') → (m = .send ∨ m = .waiting → o = none ∧ g ≠ .gen) →
          PubOK { s1 with main := m } := by
        intro s1 o m hg k1 k2
        have hf := genStep_frame hg
        obtain ⟨p1, p2, p3, p4, p5⟩ := genStep_pub hg h1 (h2 g hm)
        have hmono : s.nextPub ≠ Option.none → s1.nextPub ≠ Option.none := by
          intro hp; rcases p1 with p1 | p1
          · rw [p1]; exact hp
          · exact p1
        refine ⟨p2, fun g' hg' hl => p3 g' (k1 g' hg') hl, ?_, ?_, ?_⟩
        · intro hw
          obtain ⟨w1, w2⟩ := k2 hw
          rcases p4 w1 with p4 | p4
          · exact p4
          · exact absurd p4.1 w2
        · intro g' hg' hl
          exact hmono (h4 g' (by rw [← hf.answers]; exact hg') hl)
        · intro hg'
          exact (h5 (by rw [← hf.answers]; exact hg')).imp hmono (p5 _)
      split at hs <;> simp only [Outcome.ok.injEq, reduceCtorEq] at hs
      · rename_i hg; subst hs; exact aux _ hg (by simp) (by simp)
      · rename_i hg; subst hs
        refine aux _ hg ?_ ?_
        · intro g' hg'; split at hg' <;> simp at hg'
        · intro hw; split at hw
          · simp at hw
          · exact ⟨rfl, by assumption⟩
    · rename_i hm
      split at hs <;> simp only [Outcome.ok.injEq, reduceCtorEq] at hs
      rename_i hg; subst hs
      rcases sendPublicKey_ok hg with ⟨p, hp, rfl⟩ | rfl
      · exact ⟨h1, fun g hg => by simp at hg, fun _ => h3 (.inl hm), h4, h5⟩
      · exact ⟨h1, fun g hg => by simp at hg, fun _ => h3 (.inl hm), h4, fun hm => (h5 hm).imp id (fun h => by simp [h])⟩
    · simp at hs
  | retry ok =>
    simp only [KX.step] at hs
    split at hs
    · split at hs <;> simp only [Outcome.ok.injEq, reduceCtorEq] at hs
      rename_i hg; subst hs
      rcases sendPublicKey_ok hg with ⟨p, _, rfl⟩ | rfl
      · exact ⟨h1, h2, h3, h4, h5⟩
      · exact ⟨h1, h2, h3, h4, fun hm => (h5 hm).imp id (fun h => by simp [h])⟩
    · simp at hs
  | timeout =>
    simp only [KX.step] at hs
    split at hs <;> simp only [Outcome.ok.injEq, reduceCtorEq] at hs
    subst hs
    exact ⟨h1, fun g hg => by simp at hg, fun hm => by simp at hm, h4, fun hm => (h5 hm).imp id (fun h => by simp [h])⟩
  | done =>
    simp only [KX.step] at hs
    split at hs <;> simp only [Outcome.ok.injEq, reduceCtorEq] at hs
    subst hs
    exact ⟨h1, fun g hg => by simp at hg, fun hm => by simp at hm, h4, h5⟩
  | answer i key now ok =>
    simp only [KX.step, answerStep] at hs
    split at hs
    · simp at hs
    · simp only [Outcome.ok.injEq] at hs; subst hs
      refine ⟨h1, h2, h3, fun g hg hl => ?_, fun hg => ?_⟩
      · rcases mem_set_answers hg with hg | hg
        · exact h4 g hg hl
        · split at hg <;> simp only [Answer.gen.injEq, reduceCtorEq] at hg
          subst hg; simp [Gen.late] at hl
      · rcases mem_set_answers hg with hg | hg
        · exact h5 hg
        · split at hg <;> simp only [reduceCtorEq] at hg
          rename_i hp; exact .inl hp
    · rename_i g hi
      have hmem : Answer.gen g ∈ s.answers := List.mem_of_getElem? hi
      have aux : ∀ {s1 : State} {o : Option Gen} (x : Answer), genStep C cfg s key now g = .ok (s1, o) →
          (∀ g', x = .gen g' → o = some g') → (x = .send → o = none) →
          PubOK { s1 with answers := s.answers.set i x } := by
        intro s1 o x hg k1 k2
        have hf := genStep_frame hg
        obtain ⟨p1, p2, p3, p4, p5⟩ := genStep_pub hg h1 (h4 g hmem)
        have hmono : s.nextPub ≠ Option.none → s1.nextPub ≠ Option.none := by
          intro hp; rcases p1 with p1 | p1
          · rw [p1]; exact hp
          · exact p1
        refine ⟨p2, fun g' hg' hl => hmono (h2 g' (by rw [← hf.main]; exact hg') hl),
          fun hm => hmono (h3 (by rw [← hf.main]; exact hm)), fun g' hg' hl => ?_, fun hg' => ?_⟩
        · rcases mem_set_answers hg' with hg' | hg'
          · exact hmono (h4 g' hg' hl)
          · exact p3 g' (k1 g' hg'.symm) hl
        · rcases mem_set_answers hg' with hg' | hg'
          · exact (h5 hg').imp hmono (p5 _)
          · exact (p4 (k2 hg'.symm)).imp id (·.2)
      split at hs <;> simp only [Outcome.ok.injEq, reduceCtorEq] at hs
      · rename_i hg; subst hs; exact aux _ hg (by simp) (by simp)
      · rename_i hg; subst hs; exact aux _ hg (by simp) (by simp)
    · split at hs <;> simp only [Outcome.ok.injEq, reduceCtorEq] at hs
      rename_i hg; subst hs
      rcases sendPublicKey_ok hg with ⟨p, _, rfl⟩ | rfl
      · exact ⟨h1, h2, h3, fun g hg => h4 g (List.mem_of_mem_eraseIdx hg), fun hg => h5 (List.mem_of_mem_eraseIdx hg)⟩
      · exact ⟨h1, h2, h3, fun g hg => h4 g (List.mem_of_mem_eraseIdx hg),
          fun hg => (h5 (List.mem_of_mem_eraseIdx hg)).imp id (fun h => by simp [h])⟩
  | cancel => simp only [KX.step, Outcome.ok.injEq] at hs; subst hs; exact ⟨h1, h2, h3, h4, h5⟩

theorem pubOK_reachable {s : State} (h : Reachable C cfg remote s) : PubOK s := by
  induction h with
  | init => constructor <;> simp [State.init]
  | step a _ hs ih => exact ih.step hs

/-- The keys come from the generator and from accepted messages. -/
structure KeysOK (s : State) : Prop where
  nextLocal : ∀ k, s.keys.nextLocal = some k → k ∈ s.gens.map (·.1)
  prevLocal : ∀ k, s.keys.prevLocal = some k → k ∈ s.gens.map (·.1)
  nextRemote : ∀ k, s.keys.nextRemote = some k → k ∈ s.accepted
  prevRemote : ∀ k, s.keys.prevRemote = some k → k ∈ s.accepted

theorem genStep_keys {s s' : State} {key : Option Bytes} {now : Nat} {g : Gen} {o : Option Gen}
    (h : genStep C cfg s key now g = .ok (s', o)) :
    (s'.keys = s.keys ∧ s'.gens = s.gens ∧ s'.nextPub = s.nextPub ∧ s'.nextCreated = s.nextCreated) ∨
    ∃ priv stamp, g = .gen ∧ o = some .snapshot ∧ key = some priv ∧ stamp = (if now ≤ s.created then s.created + 1 else now) ∧
      s'.keys = s.keys.rotate priv ∧ s'.gens = s.gens ++ [(priv, stamp)] ∧ s'.nextPub = some (C.pub priv) ∧
      s'.nextCreated = stamp := by
  cases g with
  | check => simp only [genStep, Outcome.ok.injEq, Prod.mk.injEq] at h; rw [← h.1]; exact .inl ⟨rfl, rfl, rfl, rfl⟩
  | gen =>
    simp only [genStep] at h
    split at h <;> simp only [Outcome.ok.injEq, Prod.mk.injEq] at h <;> obtain ⟨rfl, rfl⟩ := h
    · exact .inl ⟨rfl, rfl, rfl, rfl⟩
    · exact .inr ⟨_, _, rfl, rfl, rfl, rfl, rfl, rfl, rfl, rfl⟩
  | snapshot =>
    simp only [genStep] at h
    split at h <;> simp only [Outcome.ok.injEq, Prod.mk.injEq, reduceCtorEq] at h
    rw [← h.1]; exact .inl ⟨rfl, rfl, rfl, rfl⟩
  | publish l =>
    simp only [genStep] at h
    split at h <;> simp only [Outcome.ok.injEq, Prod.mk.injEq, reduceCtorEq] at h
    rename_i s1 hp
    obtain ⟨k, hk, _⟩ := publish_eq hp
    rw [← h.1, hk]
    exact .inl ⟨rfl, rfl, rfl, rfl⟩

/-- How the keys of the exchanger may change in a step. -/
inductive KeyStep (C : Crypto) (s s' : State) : Prop
  | same (hk : s'.keys = s.keys) (hg : s'.gens = s.gens) (ha : s'.accepted = s.accepted) (hp : s'.nextPub = s.nextPub)
      (hn : s'.nextCreated = s.nextCreated)
  | rotate (priv : Bytes) (now : Nat) (hk : s'.keys = s.keys.rotate priv)
      (hg : s'.gens = s.gens ++ [(priv, if now ≤ s.created then s.created + 1 else now)]) (ha : s'.accepted = s.accepted)
      (hp : s'.nextPub = some (C.pub priv)) (hn : s'.nextCreated = if now ≤ s.created then s.created + 1 else now)
      (hw : s.main = .gen .gen ∨ .gen .gen ∈ s.answers)
  | receive (pub : Bytes) (b : Bytes) (msg : KxMsg) (hk : s'.keys = s.keys.receive pub) (hg : s'.gens = s.gens)
      (ha : s'.accepted = s.accepted ++ [pub]) (hp : s'.nextPub = s.nextPub) (hn : s'.nextCreated = s.nextCreated)
      (hw : s.reader = .parsed b msg) (hr : s'.reader = .snapshot msg) (hb : s.main.locks = false) (hm : pub = msg.kxPublicKey)

theorem keyStep {s s' : State} {a : Act} (hs : step C cfg s a = .ok s') : KeyStep C s s' := by
  cases a with
  | recv b =>
    simp only [step] at hs
    split at hs
    · split at hs <;> simp only [Outcome.ok.injEq, reduceCtorEq] at hs <;> subst hs <;> exact .same rfl rfl rfl rfl rfl
    · simp at hs
  | reader =>
    simp only [step, readerStep] at hs
    split at hs
    · simp at hs
    · rename_i b msg hrd
      split at hs
      · simp at hs
      · rename_i hl
        simp only [Outcome.ok.injEq] at hs; subst hs
        unfold enter
        split
        · exact .same rfl rfl rfl rfl rfl
        · split
          · exact .same rfl rfl rfl rfl rfl
          · exact .receive msg.kxPublicKey b msg rfl rfl rfl rfl rfl hrd rfl (by simpa using hl) rfl
    · split at hs <;> simp only [Outcome.ok.injEq, reduceCtorEq] at hs
      subst hs; exact .same rfl rfl rfl rfl rfl
    · split at hs <;> simp only [Outcome.ok.injEq, reduceCtorEq] at hs
      rename_i s1 hp
      obtain ⟨k, hk, _⟩ := publish_eq hp
      subst hs; subst hk; exact .same rfl rfl rfl rfl rfl
    · rename_i msg _
      simp only [Outcome.ok.injEq] at hs; subst hs
      obtain ⟨f1, f2, f3, f4, f5, f6, f7, f8, f9, f10, f11, _⟩ := finish_frame (cfg := cfg) s msg
      exact .same f3 f10 f4 f8 f9
  | tick =>
    simp only [step] at hs
    split at hs <;> simp only [Outcome.ok.injEq, reduceCtorEq] at hs
    subst hs; exact .same rfl rfl rfl rfl rfl
  | main key now ok =>
    simp only [step, mainStep] at hs
    split at hs
    · rename_i g hm
      have aux : ∀ {s1 : State} {o : Option Gen} (m : Main), genStep C cfg s key now g = .ok (s1, o) →
          KeyStep C s { s1 with main := m } := by
        intro s1 o m hg
        have hf := genStep_frame hg
        rcases genStep_keys hg with ⟨k1, k2, k3, k4⟩ | ⟨priv, stamp, k0, _, _, k1, k2, k3, k4, k5⟩
        · exact .same k1 k2 hf.accepted k3 k4
        · exact .rotate priv now k2 (by rw [← k1]; exact k3) hf.accepted k4 (by rw [← k1]; exact k5) (.inl (by rw [hm, k0]))
      split at hs <;> simp only [Outcome.ok.injEq, reduceCtorEq] at hs
      · rename_i hg; subst hs; exact aux _ hg
      · rename_i hg; subst hs; exact aux _ hg
    · split at hs <;> simp only [Outcome.ok.injEq, reduceCtorEq] at hs
      rename_i hg; subst hs
      rcases sendPublicKey_ok hg with ⟨p, _, rfl⟩ | rfl <;> exact .same rfl rfl rfl rfl rfl
    · simp at hs
  | retry ok =>
    simp only [step] at hs
    split at hs
    · split at hs <;> simp only [Outcome.ok.injEq, reduceCtorEq] at hs
      rename_i hg; subst hs
      rcases sendPublicKey_ok hg with ⟨p, _, rfl⟩ | rfl <;> exact .same rfl rfl rfl rfl rfl
    · simp at hs
  | timeout =>
    simp only [step] at hs
    split at hs <;> simp only [Outcome.ok.injEq, reduceCtorEq] at hs
    subst hs; exact .same rfl rfl rfl rfl rfl
  | done =>
    simp only [step] at hs
    split at hs <;> simp only [Outcome.ok.injEq, reduceCtorEq] at hs
    subst hs; exact .same rfl rfl rfl rfl rfl
  | answer i key now ok =>
    simp only [step, answerStep] at hs
    split at hs
    · simp at hs
    · simp only [Outcome.ok.injEq] at hs; subst hs; exact .same rfl rfl rfl rfl rfl
    · rename_i g hi
      have hmem : Answer.gen g ∈ s.answers := List.mem_of_getElem? hi
      have aux : ∀ {s1 : State} {o : Option Gen} (x : List Answer), genStep C cfg s key now g = .ok (s1, o) →
          KeyStep C s { s1 with answers := x } := by
        intro s1 o x hg
        have hf := genStep_frame hg
        rcases genStep_keys hg with ⟨k1, k2, k3, k4⟩ | ⟨priv, stamp, k0, _, _, k1, k2, k3, k4, k5⟩
        · exact .same k1 k2 hf.accepted k3 k4
        · exact .rotate priv now k2 (by rw [← k1]; exact k3) hf.accepted k4 (by rw [← k1]; exact k5)
            (.inr (by rw [← k0]; exact hmem))
      split at hs <;> simp only [Outcome.ok.injEq, reduceCtorEq] at hs
      · rename_i hg; subst hs; exact aux _ hg
      · rename_i hg; subst hs; exact aux _ hg
    · split at hs <;> simp only [Outcome.ok.injEq, reduceCtorEq] at hs
      rename_i hg; subst hs
      rcases sendPublicKey_ok hg with ⟨p, _, rfl⟩ | rfl <;> exact .same rfl rfl rfl rfl rfl
  | cancel => simp only [step, Outcome.ok.injEq] at hs; subst hs; exact .same rfl rfl rfl rfl rfl

theorem keysOK_reachable {s : State} (h : Reachable C cfg remote s) : KeysOK s := by
  induction h with
  | init => constructor <;> simp [State.init]
  | @step s s' a _ hs ih =>
    obtain ⟨i1, i2, i3, i4⟩ := ih
    cases keyStep hs with
    | same hk hg ha _ _ => constructor <;> rw [hk] <;> simp only [hg, ha] <;> assumption
    | rotate priv now hk hg ha _ _ _ =>
      constructor <;> rw [hk] <;> simp only [Keys.rotate, ha] <;> intro k hk'
      · simp only [Option.some.injEq] at hk'; rw [hg]; simp [hk']
      · rw [hg, List.map_append, List.mem_append]; exact .inl (i1 k hk')
      · exact i3 k hk'
      · exact i4 k hk'
    | receive pub _ _ hk hg ha _ _ _ _ _ _ =>
      have h1 : s'.keys.nextLocal = s.keys.nextLocal ∧ s'.keys.prevLocal = s.keys.prevLocal := by
        rw [hk]; unfold Keys.receive; split <;> exact ⟨rfl, rfl⟩
      have h2 : s'.keys.nextRemote = some pub := by
        rw [hk]; unfold Keys.receive; split
        · assumption
        · rfl
      have h3 : s'.keys.prevRemote = s.keys.prevRemote ∨ s'.keys.prevRemote = s.keys.nextRemote := by
        rw [hk]; unfold Keys.receive; split
        · exact .inl rfl
        · exact .inr rfl
      constructor
      · rw [h1.1, hg]; exact i1
      · rw [h1.2, hg]; exact i2
      · rw [h2, ha]; intro k hk'; simp only [Option.some.injEq] at hk'; simp [hk']
      · intro k hk'
        rw [ha, List.mem_append]
        rcases h3 with h3 | h3 <;> rw [h3] at hk'
        · exact .inl (i4 k hk')
        · exact .inl (i3 k hk')

/-- The panic in `generateSharedKey` needs a pair of keys with a zero secret. -/
theorem secrets_none {psk : Option Bytes} {k : Keys} (h : secrets C psk k = none) :
    ∃ a b, (k.nextLocal = some a ∨ k.prevLocal = some a) ∧ (k.nextRemote = some b ∨ k.prevRemote = some b) ∧
      C.dh a b = zeroKey := by
  have one : ∀ i, secret C psk k i = none → ∃ a b, (k.pair i).1 = some a ∧ (k.pair i).2 = some b ∧ C.dh a b = zeroKey := by
    intro i hi
    unfold secret at hi
    split at hi <;> simp only [reduceCtorEq] at hi
    rename_i h1 h2
    cases ha : (k.pair i).1 with
    | none => exact absurd (by rw [ha]; rfl) (h2 .localNil)
    | some a =>
      cases hb : (k.pair i).2 with
      | none => exact absurd (by rw [ha, hb]; rfl) (h2 .remoteNil)
      | some b =>
        refine ⟨a, b, rfl, rfl, ?_⟩
        by_cases hz : C.dh a b = zeroKey
        · exact hz
        · exfalso
          cases psk with
          | none => exact h1 (C.dh a b) (by rw [ha, hb]; simp only [generateSharedKey, if_neg hz])
          | some p =>
            exact h1 (xorBytes (C.dh a b) (hash C p [salt, cipherKeyLabel]))
              (by rw [ha, hb]; simp only [generateSharedKey, if_neg hz])
  have : ∃ i, i < 4 ∧ secret C psk k i = none := by
    unfold secrets at h
    split at h
    · simp at h
    · rename_i hn
      cases h0 : secret C psk k 0 with
      | none => exact ⟨0, by omega, h0⟩
      | some a =>
        cases h1 : secret C psk k 1 with
        | none => exact ⟨1, by omega, h1⟩
        | some b =>
          cases h2 : secret C psk k 2 with
          | none => exact ⟨2, by omega, h2⟩
          | some c =>
            cases h3 : secret C psk k 3 with
            | none => exact ⟨3, by omega, h3⟩
            | some d => exact absurd h3 (hn a b c d h0 h1 h2)
  obtain ⟨i, hi, hi2⟩ := this
  obtain ⟨a, b, h1, h2, h3⟩ := one i hi2
  refine ⟨a, b, ?_, ?_, h3⟩
  · have : i = 0 ∨ i = 1 ∨ i = 2 ∨ i = 3 := by omega
    rcases this with rfl | rfl | rfl | rfl <;> simp only [Keys.pair] at h1 <;> simp [h1]
  · have : i = 0 ∨ i = 1 ∨ i = 2 ∨ i = 3 := by omega
    rcases this with rfl | rfl | rfl | rfl <;> simp only [Keys.pair] at h2 <;> simp [h2]

/-- Secrets pending are passed on without a panic. -/
theorem publish_some {s : State} {l : List (Option Bytes)} (hr : Reachable C cfg remote s) (hp : Pending s l) :
    publish s l ≠ none := by
  obtain ⟨s0, as, _, _, hl⟩ := pending_taken hr l hp
  unfold publish
  split
  · simp
  · rename_i h0
    rw [setSecrets_taken hl h0 (sessOK_reachable hr).pre]
    simp

/-- Why a step can crash. -/
theorem crash_cause {s : State} {a : Act} (hr : Reachable C cfg remote s) :
    step C cfg s a ≠ .panic ∧ ∀ e, step C cfg s a = .err e →
      (e = .zeroSecret ∧ secrets C cfg.psk s.keys = none) ∨ (e = .nilPublicKey ∧ s.nextPub = none ∧ .send ∈ s.answers) := by
  have hpub := pubOK_reachable hr
  have hgen : ∀ g key now, Pending s (match g with | .publish l => l | _ => []) ∨ (∀ l, g ≠ .publish l) →
      genStep C cfg s key now g ≠ .panic ∧ ∀ e, genStep C cfg s key now g = .err e →
      e = .zeroSecret ∧ secrets C cfg.psk s.keys = none := by
    intro g key now hg
    cases g with
    | check => simp [genStep]
    | gen => simp only [genStep]; split <;> simp
    | snapshot =>
      simp only [genStep]
      split
      · exact ⟨by simp, fun e he => by simp only [Outcome.err.injEq] at he; exact ⟨he.symm, by assumption⟩⟩
      · simp
    | publish l =>
      simp only [genStep]
      split
      · rename_i hn
        rcases hg with hg | hg
        · exact absurd hn (publish_some hr hg)
        · exact absurd rfl (hg l)
      · simp
  have hsend : ∀ an ok, sendPublicKey C cfg s an ok ≠ .panic ∧ ∀ e, sendPublicKey C cfg s an ok = .err e →
      e = .nilPublicKey ∧ s.nextPub = none := by
    intro an ok
    unfold sendPublicKey
    split
    · exact ⟨by simp, fun e he => by simp only [Outcome.err.injEq] at he; exact ⟨he.symm, by assumption⟩⟩
    · split <;> simp
  cases a with
  | recv b =>
    simp only [step]
    split
    · have : parseAndCheck C cfg s.remoteIdentity b ≠ .panic := by
        unfold parseAndCheck; repeat' split
        all_goals simp
      split <;> simp_all
    · simp
  | reader =>
    simp only [step, readerStep]
    split
    · simp
    · split <;> simp
    · split
      · exact ⟨by simp, fun e he => by simp only [Outcome.err.injEq] at he; exact .inl ⟨he.symm, by assumption⟩⟩
      · simp
    · rename_i msg l hrd
      split
      · rename_i hn; exact absurd hn (publish_some hr (.inl ⟨msg, hrd⟩))
      · simp
    · simp
  | tick => simp only [step]; split <;> simp
  | main key now ok =>
    simp only [step, mainStep]
    split
    · rename_i g hm
      have hg := hgen g key now (by
        cases g with
        | publish l => exact .inl (.inr (.inl hm))
        | _ => exact .inr (by simp))
      split
      · simp
      · simp
      · rename_i e he
        exact ⟨by simp, fun e' he' => by simp only [Outcome.err.injEq] at he'; subst he'; exact .inl (hg.2 e he)⟩
      · rename_i he; exact absurd he hg.1
      · simp
    · rename_i hm
      split
      · simp
      · rename_i e he
        exact absurd ((hsend _ _).2 e he).2 (hpub.mainSend (.inl hm))
      · rename_i he; exact absurd he (hsend _ _).1
      · simp
    · simp
  | retry ok =>
    simp only [step]
    split
    · rename_i hm
      split
      · simp
      · rename_i e he
        exact absurd ((hsend _ _).2 e he).2 (hpub.mainSend (.inr hm))
      · rename_i he; exact absurd he (hsend _ _).1
      · simp
    · simp
  | timeout => simp only [step]; split <;> simp
  | done => simp only [step]; split <;> simp
  | answer i key now ok =>
    simp only [step, answerStep]
    split
    · simp
    · simp
    · rename_i g hi
      have hmem : Answer.gen g ∈ s.answers := List.mem_of_getElem? hi
      have hg := hgen g key now (by
        cases g with
        | publish l => exact .inl (.inr (.inr hmem))
        | _ => exact .inr (by simp))
      split
      · simp
      · simp
      · rename_i e he
        exact ⟨by simp, fun e' he' => by simp only [Outcome.err.injEq] at he'; subst he'; exact .inl (hg.2 e he)⟩
      · rename_i he; exact absurd he hg.1
      · simp
    · rename_i hi
      have hmem : Answer.send ∈ s.answers := List.mem_of_getElem? hi
      split
      · simp
      · rename_i e he
        refine ⟨by simp, fun e' he' => ?_⟩
        simp only [Outcome.err.injEq] at he'; subst he'
        exact .inr ⟨((hsend _ _).2 e he).1, ((hsend _ _).2 e he).2, hmem⟩
      · rename_i he; exact absurd he (hsend _ _).1
      · simp
  | cancel => simp [step]

end Verif.KX
