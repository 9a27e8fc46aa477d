import Verif.Props.Forget
/-!
# C172: Each key exchange has ECDH key pairs of its own
-/
namespace Verif.KX

variable {C : Crypto} {cfg : Cfg}

/-- No goroutine is about to make a key. -/
structure NoGen (s : State) : Prop where
  main : s.main ≠ .gen .check ∧ s.main ≠ .gen .gen
  answers : ∀ a ∈ s.answers, ∀ g, a ≠ .gen g

/-- The messages in the second list that are not in the first carry the key `pub`. -/
def CarryOnly (C : Crypto) (cfg : Cfg) (pub : Bytes) (before after : List Bytes) : Prop :=
  ∃ l : List Bytes, after = before ++ l ∧ ∀ m ∈ l, ∃ ans, m = kxMessage C cfg pub ans

theorem CarryOnly.refl {pub : Bytes} (l : List Bytes) : CarryOnly C cfg pub l l := ⟨[], by simp, by simp⟩

theorem CarryOnly.snoc {pub : Bytes} {a b : List Bytes} (h : CarryOnly C cfg pub a b) (ans : Bool) :
    CarryOnly C cfg pub a (b ++ [kxMessage C cfg pub ans]) := by
  obtain ⟨l, rfl, h2⟩ := h
  refine ⟨l ++ [kxMessage C cfg pub ans], by simp, ?_⟩
  intro m hm
  rw [List.mem_append] at hm
  rcases hm with hm | hm
  · exact h2 m hm
  · exact ⟨ans, by simpa using hm⟩

/-- What stays so as long as the loop does not begin another update. -/
structure Same (C : Crypto) (cfg : Cfg) (pub : Bytes) (sent : List Bytes) (gens : List (Bytes × Nat)) (s : State) : Prop where
  key : s.nextPub = some pub
  noGen : NoGen s
  sent : CarryOnly C cfg pub sent s.sent
  gens : s.gens = gens

theorem publish_fields {s s' : State} {l : List (Option Bytes)} (h : publish s l = some s') :
    ∃ k, s' = { s with sess := k } := by
  unfold publish at h
  split at h
  · exact ⟨s.sess, by simpa using h.symm⟩
  · simp only [Option.map_eq_some_iff] at h
    obtain ⟨k, -, rfl⟩ := h
    exact ⟨k, rfl⟩

theorem same_send {pub : Bytes} {sent : List Bytes} {gens : List (Bytes × Nat)} {s s' : State} {ans ok : Bool}
    (h : Same C cfg pub sent gens s) (hs : sendPublicKey C cfg s ans ok = .ok s') :
    Same C cfg pub sent gens s' ∧ s'.main = s.main ∧ s'.answers = s.answers := by
  simp only [sendPublicKey, h.key] at hs
  split at hs
  · simp only [Outcome.ok.injEq] at hs
    subst hs
    exact ⟨⟨rfl, ⟨h.noGen.main, h.noGen.answers⟩, h.sent.snoc ans, h.gens⟩, rfl, rfl⟩
  · simp only [Outcome.ok.injEq] at hs
    subst hs
    exact ⟨⟨rfl, ⟨h.noGen.main, h.noGen.answers⟩, h.sent, h.gens⟩, rfl, rfl⟩

theorem same_step {pub : Bytes} {sent : List Bytes} {gens : List (Bytes × Nat)} {s s' : State} {a : Act}
    (h : Same C cfg pub sent gens s) (ha : a ≠ .tick) (hs : step C cfg s a = .ok s') : Same C cfg pub sent gens s' := by
  have hsame := h
  obtain ⟨h1, ⟨h2, h3⟩, h4, h5⟩ := h
  cases a with
  | tick => exact absurd rfl ha
  | recv b =>
    simp only [step] at hs
    (repeat' split at hs) <;> (try (simp at hs; done)) <;>
      (simp only [Outcome.ok.injEq] at hs; subst hs; exact ⟨h1, ⟨h2, h3⟩, h4, h5⟩)
  | reader =>
    simp only [step, readerStep] at hs
    split at hs
    · simp at hs
    · split at hs
      · simp at hs
      · simp only [Outcome.ok.injEq, enter] at hs
        (repeat' split at hs) <;> (subst hs; exact ⟨h1, ⟨h2, h3⟩, h4, h5⟩)
    · split at hs
      · simp at hs
      · simp only [Outcome.ok.injEq] at hs; subst hs; exact ⟨h1, ⟨h2, h3⟩, h4, h5⟩
    · split at hs
      · simp at hs
      · rename_i hp
        obtain ⟨k, rfl⟩ := publish_fields hp
        simp only [Outcome.ok.injEq] at hs; subst hs; exact ⟨h1, ⟨h2, h3⟩, h4, h5⟩
    · simp only [Outcome.ok.injEq] at hs
      subst hs
      refine ⟨?_, ⟨?_, ?_⟩, ?_, ?_⟩
      · simp only [finish]; split <;> exact h1
      · simp only [finish]; split <;> exact h2
      · intro x hx g
        simp only [finish] at hx
        split at hx
        · rw [List.mem_append] at hx
          rcases hx with hx | hx
          · exact h3 x hx g
          · simp only [List.mem_cons, List.not_mem_nil, or_false] at hx; subst hx; simp
        · exact h3 x hx g
      · simp only [finish]; split <;> exact h4
      · simp only [finish]; split <;> exact h5
  | main key now ok =>
    simp only [step, mainStep] at hs
    split at hs
    · rename_i g hg
      cases g with
      | check => exact absurd hg h2.1
      | gen => exact absurd hg h2.2
      | snapshot =>
        simp only [genStep] at hs
        cases hsec : secrets C cfg.psk s.keys with
        | none => simp [hsec] at hs
        | some l =>
          simp only [hsec, Outcome.ok.injEq] at hs
          subst hs
          exact ⟨h1, ⟨⟨by simp, by simp⟩, h3⟩, h4, h5⟩
      | publish l =>
        simp only [genStep] at hs
        cases hp : publish s l with
        | none => simp [hp] at hs
        | some s1 =>
          simp only [hp, Outcome.ok.injEq] at hs
          obtain ⟨k, rfl⟩ := publish_fields hp
          subst hs
          exact ⟨h1, ⟨⟨by simp, by simp⟩, h3⟩, h4, h5⟩
    · split at hs <;> (try (simp at hs; done))
      rename_i s1 hsd
      obtain ⟨hs1, hm, han⟩ := same_send hsame hsd
      simp only [Outcome.ok.injEq] at hs
      subst hs
      exact ⟨hs1.key, ⟨⟨by simp, by simp⟩, hs1.noGen.answers⟩, hs1.sent, hs1.gens⟩
    · simp at hs
  | retry ok =>
    simp only [step] at hs
    split at hs
    · split at hs <;> (try (simp at hs; done))
      rename_i s1 hsd
      simp only [Outcome.ok.injEq] at hs
      subst hs
      exact (same_send hsame hsd).1
    · simp at hs
  | timeout =>
    simp only [step] at hs
    split at hs <;> (try (simp at hs; done))
    simp only [Outcome.ok.injEq] at hs; subst hs; exact ⟨h1, ⟨⟨by simp, by simp⟩, h3⟩, h4, h5⟩
  | done =>
    simp only [step] at hs
    split at hs <;> (try (simp at hs; done))
    simp only [Outcome.ok.injEq] at hs; subst hs; exact ⟨h1, ⟨⟨by simp, by simp⟩, h3⟩, h4, h5⟩
  | answer i key now ok =>
    simp only [step, answerStep] at hs
    split at hs
    · simp at hs
    · simp only [h1, reduceCtorEq, if_false, Outcome.ok.injEq] at hs
      subst hs
      refine ⟨rfl, ⟨h2, ?_⟩, h4, h5⟩
      intro x hx g
      rcases List.mem_or_eq_of_mem_set hx with hx | hx
      · exact h3 x hx g
      · subst hx; simp
    · rename_i g hg
      exact absurd rfl (h3 _ (List.mem_of_getElem? hg) g)
    · split at hs <;> (try (simp at hs; done))
      rename_i s1 hsd
      obtain ⟨hs1, hm, han⟩ := same_send hsame hsd
      simp only [Outcome.ok.injEq] at hs
      subst hs
      refine ⟨hs1.key, ⟨hs1.noGen.main, ?_⟩, hs1.sent, hs1.gens⟩
      intro x hx g
      exact h3 x (List.mem_of_mem_eraseIdx hx) g
  | cancel => simp only [step, Outcome.ok.injEq] at hs; subst hs; exact ⟨h1, ⟨h2, h3⟩, h4, h5⟩

/-- Negation of C172, for all executions: until the loop begins its next update, no key is made, and whatever requests with
whatever keys arrive, all messages that are sent, answers included, carry the same public key. -/
theorem C172_between {pub : Bytes} {s : State} (hp : s.nextPub = some pub) (hn : NoGen s) :
    ∀ (as : List Act) {s' : State}, .tick ∉ as → runActs C cfg s as = .ok s' →
      CarryOnly C cfg pub s.sent s'.sent ∧ s'.gens = s.gens ∧ s'.nextPub = some pub := by
  suffices h : ∀ (as : List Act) {t s' : State}, Same C cfg pub s.sent s.gens t → .tick ∉ as → runActs C cfg t as = .ok s' →
      Same C cfg pub s.sent s.gens s' by
    intro as s' ha hr
    have := h as ⟨hp, hn, .refl _, rfl⟩ ha hr
    exact ⟨this.sent, this.gens, this.key⟩
  intro as
  induction as with
  | nil => intro t s' ht _ hr; simp only [runActs, Outcome.ok.injEq] at hr; rw [← hr]; exact ht
  | cons a as ih =>
    intro t s' ht ha hr
    simp only [runActs] at hr
    split at hr <;> (try (simp at hr; done))
    rename_i t1 h1
    exact ih (same_step ht (fun h => ha (by simp [h])) h1) (fun h => ha (List.mem_cons_of_mem _ h)) hr

/-- C172, what holds: an update of the loop, unless one is in progress, makes a key, and the request, its retries, and all
answers until the next update carry it.  Missing: keys of their own for the answers (`C172_violated`). -/
theorem C172_update_partial {s s1 s' : State} {priv : Bytes} {now : Nat} {ok : Bool} {as : List Act} (hm : s.main = .gen .gen)
    (ha : ∀ a ∈ s.answers, ∀ g, a ≠ .gen g) (h1 : step C cfg s (.main (some priv) now ok) = .ok s1) (hn : .tick ∉ as)
    (hr : runActs C cfg s1 as = .ok s') :
    CarryOnly C cfg (C.pub priv) s.sent s'.sent ∧ s'.nextPub = some (C.pub priv) ∧
      ∃ stamp, s'.gens = s.gens ++ [(priv, stamp)] := by
  simp only [step, mainStep, hm, genStep, Outcome.ok.injEq] at h1
  subst h1
  have hg : NoGen { s with
      keys := s.keys.rotate priv, nextPub := some (C.pub priv), main := .gen .snapshot
      nextCreated := if now ≤ s.created then s.created + 1 else now
      gens := s.gens ++ [(priv, if now ≤ s.created then s.created + 1 else now)] } := ⟨⟨by simp, by simp⟩, ha⟩
  obtain ⟨h2, h3, h4⟩ := C172_between rfl hg as hn hr
  exact ⟨h2, h4, _, h3⟩

/-- Negation of C172: Alice has a key, and Bob makes two exchanges with different keys of his own.  Both are answered with the
same key of Alice, and the keys in use before and after come from the same private key of hers. -/
theorem C172_violated :
    let answer : List Act := [.answer 0 none 0 true, .answer 0 none 0 true]
    let s1 := aliceAt (rotate [4] 5 ++ handle bob1 ++ answer)
    let s2 := aliceAt (rotate [4] 5 ++ handle bob1 ++ answer ++ handle bob2 ++ answer)
    runActs toy alice (State.init none) (rotate [4] 5 ++ handle bob1 ++ answer ++ handle bob2 ++ answer) = .ok s2 ∧
    s2.sent = [kxMessage toy alice (toy.pub [4]) false, kxMessage toy alice (toy.pub [4]) true, kxMessage toy alice (toy.pub [4]) true] ∧
    (s1.accepted, s2.accepted) = ([toy.pub [1]], [toy.pub [1], toy.pub [2]]) ∧
    (s1.keys.nextLocal, s2.keys.nextLocal) = (some [4], some [4]) ∧
    (s1.sess.cipherKeys[0]?).join ≠ none ∧ s1.sess.cipherKeys[0]? ≠ s2.sess.cipherKeys[0]? := by decide +kernel

/-- Every message that a session sends carries a key that was made in this session. -/
theorem C172_origin {remote : Option Bytes} {s : State} (h : Reachable C cfg remote s) :
    (∀ pub, s.nextPub = some pub → ∃ g ∈ s.gens, pub = C.pub g.1) ∧
    ∀ m ∈ s.sent, ∃ g ∈ s.gens, ∃ ans, m = kxMessage C cfg (C.pub g.1) ans := by
  have hsend : ∀ {s s' : State} {ans ok : Bool}, (∀ pub, s.nextPub = some pub → ∃ g ∈ s.gens, pub = C.pub g.1) ∧
      (∀ m ∈ s.sent, ∃ g ∈ s.gens, ∃ ans, m = kxMessage C cfg (C.pub g.1) ans) → sendPublicKey C cfg s ans ok = .ok s' →
      (∀ pub, s'.nextPub = some pub → ∃ g ∈ s'.gens, pub = C.pub g.1) ∧
      (∀ m ∈ s'.sent, ∃ g ∈ s'.gens, ∃ ans, m = kxMessage C cfg (C.pub g.1) ans) := by
    intro s s' ans ok h hs
    simp only [sendPublicKey] at hs
    split at hs
    · simp at hs
    · rename_i pub hp
      split at hs
      · simp only [Outcome.ok.injEq] at hs
        subst hs
        refine ⟨fun p hp' => h.1 p (by rw [← hp']), ?_⟩
        intro m hm
        rw [List.mem_append] at hm
        rcases hm with hm | hm
        · exact h.2 m hm
        · obtain ⟨g, hg, rfl⟩ := h.1 pub hp
          exact ⟨g, hg, ans, by simpa using hm⟩
      · simp only [Outcome.ok.injEq] at hs
        subst hs
        exact ⟨fun p hp' => h.1 p (by rw [← hp']), h.2⟩
  have hgen : ∀ {s s' : State} {key : Option Bytes} {now : Nat} {g : Gen} {g' : Option Gen},
      (∀ pub, s.nextPub = some pub → ∃ g ∈ s.gens, pub = C.pub g.1) ∧
      (∀ m ∈ s.sent, ∃ g ∈ s.gens, ∃ ans, m = kxMessage C cfg (C.pub g.1) ans) → genStep C cfg s key now g = .ok (s', g') →
      (∀ pub, s'.nextPub = some pub → ∃ g ∈ s'.gens, pub = C.pub g.1) ∧
      (∀ m ∈ s'.sent, ∃ g ∈ s'.gens, ∃ ans, m = kxMessage C cfg (C.pub g.1) ans) := by
    intro s s' key now g g' h hs
    cases g with
    | check =>
      simp only [genStep, Outcome.ok.injEq, Prod.mk.injEq] at hs
      obtain ⟨rfl, -⟩ := hs
      exact h
    | gen =>
      simp only [genStep] at hs
      split at hs
      · simp only [Outcome.ok.injEq, Prod.mk.injEq] at hs
        obtain ⟨rfl, -⟩ := hs
        exact h
      · rename_i priv
        simp only [Outcome.ok.injEq, Prod.mk.injEq] at hs
        obtain ⟨rfl, -⟩ := hs
        refine ⟨fun p hp => ?_, fun m hm => ?_⟩
        · simp only [Option.some.injEq] at hp
          exact ⟨_, List.mem_append_right _ (List.mem_singleton_self _), hp.symm⟩
        · obtain ⟨g, hg, r⟩ := h.2 m hm
          exact ⟨g, by simp [hg], r⟩
    | snapshot =>
      simp only [genStep] at hs
      split at hs <;> simp only [reduceCtorEq, Outcome.ok.injEq, Prod.mk.injEq] at hs
      obtain ⟨rfl, -⟩ := hs
      exact h
    | publish l =>
      simp only [genStep] at hs
      split at hs <;> simp only [reduceCtorEq, Outcome.ok.injEq, Prod.mk.injEq] at hs
      obtain ⟨rfl, -⟩ := hs
      rename_i hp
      obtain ⟨k, rfl⟩ := publish_fields hp
      exact h
  induction h with
  | init => simp [State.init]
  | @step s s' a hr hs ih =>
    cases a with
    | tick =>
      simp only [step] at hs
      split at hs <;> simp only [reduceCtorEq, Outcome.ok.injEq] at hs
      subst hs; exact ih
    | recv b =>
      simp only [step] at hs
      (repeat' split at hs) <;> (try (simp at hs; done)) <;>
        (simp only [Outcome.ok.injEq] at hs; subst hs; exact ih)
    | reader =>
      simp only [step, readerStep] at hs
      split at hs
      · simp at hs
      · split at hs
        · simp at hs
        · simp only [Outcome.ok.injEq, enter] at hs
          (repeat' split at hs) <;> (subst hs; exact ih)
      · split at hs <;> simp only [reduceCtorEq, Outcome.ok.injEq] at hs
        subst hs; exact ih
      · split at hs
        · simp at hs
        · rename_i hp
          obtain ⟨k, rfl⟩ := publish_fields hp
          simp only [Outcome.ok.injEq] at hs; subst hs; exact ih
      · simp only [Outcome.ok.injEq] at hs
        subst hs
        simp only [finish]
        split <;> exact ih
    | main key now ok =>
      simp only [step, mainStep] at hs
      split at hs
      · split at hs <;> simp only [reduceCtorEq, Outcome.ok.injEq] at hs
        · rename_i hg; have := hgen ih hg; subst hs; exact this
        · rename_i hg; have := hgen ih hg; subst hs; exact this
      · split at hs <;> simp only [reduceCtorEq, Outcome.ok.injEq] at hs
        rename_i hg; have := hsend ih hg; subst hs; exact this
      · simp at hs
    | retry ok =>
      simp only [step] at hs
      split at hs
      · split at hs <;> simp only [reduceCtorEq, Outcome.ok.injEq] at hs
        rename_i hg; have := hsend ih hg; subst hs; exact this
      · simp at hs
    | timeout =>
      simp only [step] at hs
      split at hs <;> simp only [reduceCtorEq, Outcome.ok.injEq] at hs
      subst hs; exact ih
    | done =>
      simp only [step] at hs
      split at hs <;> simp only [reduceCtorEq, Outcome.ok.injEq] at hs
      subst hs; exact ih
    | answer i key now ok =>
      simp only [step, answerStep] at hs
      split at hs
      · simp at hs
      · simp only [Outcome.ok.injEq] at hs; subst hs; exact ih
      · split at hs <;> simp only [reduceCtorEq, Outcome.ok.injEq] at hs
        · rename_i hg; have := hgen ih hg; subst hs; exact this
        · rename_i hg; have := hgen ih hg; subst hs; exact this
      · split at hs <;> simp only [reduceCtorEq, Outcome.ok.injEq] at hs
        rename_i hg; have := hsend ih hg; subst hs; exact this
    | cancel => simp only [step, Outcome.ok.injEq] at hs; subst hs; exact ih

/-- The hypotheses of `C172_between` and of `C172_update_partial`. -/
example : (aliceAt (rotate [4] 5)).nextPub = some (toy.pub [4]) ∧ NoGen (aliceAt (rotate [4] 5)) :=
  ⟨by decide +kernel, ⟨by decide +kernel, by decide +kernel⟩, by
    rw [show (aliceAt (rotate [4] 5)).answers = [] by decide +kernel]; simp⟩

example : (aliceAt [.tick, .main none 0 true]).main = .gen .gen ∧ (aliceAt [.tick, .main none 0 true]).answers = [] ∧
    runActs toy alice (aliceAt [.tick, .main none 0 true]) ([.main (some [4]) 5 true, .main none 0 true, .main none 0 true,
      .main none 0 true, .retry true] ++ handle bob1) = .ok (aliceAt (rotate [4] 5 ++ [.retry true] ++ handle bob1)) := by
  decide +kernel

/-- The next update of the loop makes another key, if the one before was answered; otherwise the same key is sent again. -/
example : (aliceAt (rotate [4] 5 ++ handle bobAnswer ++ [.done] ++ rotate [6] 9)).sent =
      [kxMessage toy alice (toy.pub [4]) false, kxMessage toy alice (toy.pub [6]) false] ∧
    (aliceAt (rotate [4] 5 ++ [.done, .tick, .main none 0 true, .main none 0 true])).sent =
      [kxMessage toy alice (toy.pub [4]) false, kxMessage toy alice (toy.pub [4]) false] := by decide +kernel

#print axioms C172_between
#print axioms C172_update_partial
#print axioms C172_violated
#print axioms C172_origin

end Verif.KX
