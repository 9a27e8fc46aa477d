import Verif.Lemmas.Handshake
/-!
# Updates of the key: C105, C106, C107

The loop of a side is at `.gen` when it has decided to renew the key; `created` is the stamp of the last local key that was agreed with
the other side.
-/
namespace Verif.Handshake

/-! ## C105 -/

/-- Of a side whose loop began to renew the key when the stamp of the agreed key was `c`. -/
structure Renewing (c : Nat) (t : Side) : Prop where
  grows : c ≤ t.created
  order : t.created ≤ t.next
  note : ∀ v, t.notify = some v → v ≤ t.created
  main : c < t.created ∨ t.closed = true ∨ t.main = .gen ∨ ((t.main = .send ∨ t.main = .waiting) ∧ c < t.awaited)

/-- Stamps of notifications and of agreed keys. -/
structure Stamps (t : Side) : Prop where
  order : t.created ≤ t.next
  note : ∀ v, t.notify = some v → v ≤ t.created

theorem stamps_moves {mode : Nat} {t t' : Side} (h : Moves mode t t') (g : Stamps t) : Stamps t' := by
  obtain ⟨h1, h2⟩ := g
  cases h with
  | gen now hm => constructor <;> simp only [Side.updateLocalKey, Side.newKey] <;> (repeat' split) <;> grind
  | take hm => constructor <;> simp only [Side.take] <;> split <;> grind
  | giveUp hm hn => clear hn; constructor <;> simp only [Side.take] <;> split <;> grind
  | handle m => cases hn : t.notify <;> constructor <;> simp only [Side.handle, hn] <;> (repeat' split) <;> grind [Option.getD]
  | aMake i now ha => constructor <;> simp only [Side.newKey] <;> (repeat' split) <;> grind
  | _ => constructor <;> grind

theorem stamps {mode : Nat} {s : Sys} (h : Reachable mode s) (x : Bool) : Stamps (s.side x) :=
  invariant (by constructor <;> simp [Side.init]) (fun _ _ => stamps_moves) h x

theorem renewing_moves {mode c : Nat} {t t' : Side} (h : Moves mode t t') (g : Renewing c t) : Renewing c t' := by
  obtain ⟨h1, h2, h3, h4⟩ := g
  cases h with
  | gen now hm => constructor <;> simp only [Side.updateLocalKey, Side.newKey] <;> (repeat' split) <;> grind
  | take hm => constructor <;> simp only [Side.take] <;> split <;> grind
  | giveUp hm hn => clear hn; constructor <;> simp only [Side.take] <;> split <;> grind
  | handle m => cases hn : t.notify <;> constructor <;> simp only [Side.handle, hn] <;> (repeat' split) <;> grind [Option.getD]
  | aMake i now ha => constructor <;> simp only [Side.newKey] <;> (repeat' split) <;> grind
  | _ => constructor <;> grind

theorem path_moves {mode : Nat} {P : Side → Prop} (h1 : ∀ t t', Moves mode t t' → P t → P t') {p : Act → Bool} {s s' : Sys}
    (h : Path mode p s s') (x : Bool) (h0 : P (s.side x)) : P (s'.side x) := by
  induction h with
  | refl => exact h0
  | step act _ _ hs ih => exact h1 _ _ (step_moves hs x) ih

/-- C105: in every answers mode, whatever is lost, delayed, repeated by retries or done by answering goroutines, and whatever the clock
does: when the loop of a side has begun to renew the key and is back at its ticker, a key that is newer than the one before has been agreed,
or the side has given up and reported it. -/
theorem C105_renewed {mode : Nat} {s s' : Sys} (h : Reachable mode s) (x : Bool) (hm : (s.side x).main = .gen)
    (hp : Path mode (fun _ => true) s s') (hi : (s'.side x).main = .idle) :
    (s.side x).created < (s'.side x).created ∨ GivenUp s' x := by
  have g := stamps h x
  have r := path_moves (fun _ _ => renewing_moves) hp x (P := Renewing (s.side x).created)
    ⟨Nat.le_refl _, g.order, g.note, .inr (.inr (.inl hm))⟩
  rcases r.main with h1 | h1 | h1 | h1
  · exact .inl h1
  · exact .inr h1
  · simp [hi] at h1
  · simp [hi] at h1

/-- Not vacuous: a first and a second update of side a. -/
example : (run 1 .init [.loop false true 1, .loop false true 1, .loop false true 1, .recv true 0, .answer true 0 2, .answer true 0 2,
      .answer true 0 2, .answer true 0 2, .answer true 0 2, .recv false 0, .done false, .tick false, .loop false false 9]).any
      (fun s => decide ((s.side false).main = .gen ∧ (s.side false).created = 1)) = true ∧
    (run 1 .init [.loop false true 1, .loop false true 1, .loop false true 1, .recv true 0, .answer true 0 2, .answer true 0 2,
      .answer true 0 2, .answer true 0 2, .answer true 0 2, .recv false 0, .done false, .tick false, .loop false false 9,
      .loop false false 9, .loop false false 9, .recv true 0, .answer true 0 9, .answer true 0 9, .recv false 0, .done false]).any
      (fun s => decide ((s.side false).main = .idle ∧ (s.side false).created = 9)) = true := by decide +kernel

/-! ## C106 -/

/-- Side `x` is about to send a key that it has just made, no notification about an older one has got in between, and no answering
goroutine is making a key. -/
structure FreshUpdate (t : Side) : Prop where
  main : t.main = .send
  opened : t.closed = false
  key : t.hasKey = true
  awaited : t.awaited = t.next
  fresh : t.created < t.next
  note : t.notify = none
  answers : ∀ a ∈ t.answers, a ≠ .check ∧ a ≠ .make

/-- Of such a side later on, with `n` successes at the beginning. -/
structure Awaiting (n : Nat) (t : Side) : Prop where
  key : t.hasKey = true
  answers : ∀ a ∈ t.answers, a ≠ .check ∧ a ≠ .make
  main : t.main = .send ∨ t.main = .waiting ∨ t.main = .idle
  wait : t.main ≠ .idle → t.closed = false ∧ t.awaited = t.next ∧
    (t.successes = n ∧ t.notify = none ∨ t.notify = some t.next)
  idle : t.closed = true → t.successes = n

theorem mem_set {l : List Answer} {i : Nat} {a b : Answer} (h : b ∈ l.set i a) : b ∈ l ∨ b = a := List.mem_or_eq_of_mem_set h

theorem awaiting_moves {mode n : Nat} {t t' : Side} (h : Moves mode t t') (hc : t.closed = false)
    (ht : t.main = .idle → t'.main = .idle) (g : Awaiting n t) : Awaiting n t' := by
  obtain ⟨h1, h2, h3, h4, h5⟩ := g
  cases h with
  | gen now hm => grind
  | take hm => constructor <;> simp only [Side.take] <;> split <;> grind
  | giveUp hm hn =>
    have hw := h4 (by simp [hm])
    rcases hw.2.2 with hw1 | hw1
    · constructor <;> simp [Side.take, hw1.2, h1, hw1.1] <;> exact h2
    · simp [Side.take, hw1, hw.2.1] at hn
  | handle m => cases hn : t.notify <;> constructor <;> simp only [Side.handle, hn] <;> (repeat' split) <;> grind [Option.getD]
  | aMake i now ha => grind
  | aStart i ha => constructor <;> grind [mem_set]
  | aSkip i ha => constructor <;> grind [mem_set]
  | aCheck i ha => grind
  | aSend i ha => constructor <;> grind [List.mem_of_mem_eraseIdx]
  | _ => constructor <;> grind

theorem awaiting_step {mode n : Nat} {s s' : Sys} {act : Act} (h : step mode s act = some s') (x : Bool) (ha : act ≠ .tick x)
    (g : Awaiting n (s.side x)) : Awaiting n (s'.side x) := by
  cases hc : (s.side x).closed with
  | true => rw [closed_stays h x hc]; exact g
  | false => exact awaiting_moves (step_moves h x) hc (idle_stays h x ha) g

/-- C106 (restriction that holds): in every answers mode, with any losses: a side that waits for the key that it has sent does not give up
once a message that completes the exchange has arrived (and if the loop is over without giving up, the next update is due only at the
ticker), if no notification got into the channel between its being emptied and the new key, and no answering goroutine was making a key at
that time.
Missing for the full C106: these two cases, see `C106_violated` and `C106_clock`. -/
theorem C106_partial {mode : Nat} {s s' : Sys} (x : Bool) (hf : FreshUpdate (s.side x)) (hp : Path mode (fun act => act != .tick x) s s')
    (hg : GivenUp s' x) : (s'.side x).successes = (s.side x).successes := by
  have g : Awaiting (s.side x).successes (s'.side x) := by
    clear hg
    induction hp with
    | refl =>
      exact ⟨hf.key, hf.answers, .inl hf.main, fun _ => ⟨hf.opened, hf.awaited, .inl ⟨rfl, hf.note⟩⟩, fun h => by simp [hf.opened] at h⟩
    | step act ha _ hs ih => exact awaiting_step hs x (by simpa using ha) ih
  exact g.idle hg

/-- Not vacuous: side a is about to send its first key. -/
example : (run 1 .init [.loop false true 1, .loop false true 1]).any (fun s => decide ((s.side false).main = .send ∧
    (s.side false).awaited = (s.side false).next ∧ (s.side false).created < (s.side false).next ∧ (s.side false).notify = none ∧
    (s.side false).hasKey = true ∧ (s.side false).closed = false ∧ (s.side false).answers = [])) = true := by decide +kernel

/-- Mode "disable", nothing is lost.  The message of a arrives when the loop of b has emptied its channel and has not made its key; the
notification is about no key.  The message of b arrives at a, so both sides have what they need, and a is done.  The loop of b ignores the
notification, and waits for another message of a. -/
def staleDisable : List Act :=
  [.loop false true 1, .loop false true 1, .loop false true 1, .loop true true 1, .recv true 0, .loop true true 1, .loop true true 1,
    .recv false 0, .done false, .done true]

/-- The state that this leads to. -/
def ignored : Sys :=
  ⟨⟨1, 1, true, .idle, 1, none, [], false, false, 1, false⟩, ⟨0, 1, true, .waiting, 1, none, [], false, false, 1, false⟩, [], []⟩

/-- Default mode, nothing is lost.  Side a has sent its first key twice; the second answer arrives in the next update, between the emptying
of the channel and the new key.  The notification about the new key finds the channel full and is dropped. -/
def staleDefault : List Act :=
  [.loop false true 1, .loop false true 1, .loop false true 1, .retry false, .recv true 0, .answer true 0 2, .answer true 0 2,
    .answer true 0 2, .answer true 0 2, .answer true 0 2, .recv true 0, .answer true 0 3, .answer true 0 3, .recv false 0, .done false,
    .tick false, .loop false false 9, .recv false 0, .loop false false 9, .loop false false 9, .recv true 0, .answer true 0 9,
    .answer true 0 9, .recv false 0]

/-- The state that this leads to. -/
def dropped : Sys :=
  ⟨⟨9, 9, true, .waiting, 9, some 1, [], false, false, 3, false⟩, ⟨0, 2, true, .start, 0, none, [], true, false, 0, false⟩, [], []⟩

/-- Side b waits, and nothing that it waits for can come. -/
structure Orphan (s : Sys) : Prop where
  main : (s.side false).main = .idle
  answers : (s.side false).answers = []
  inbox : s.inbox true = []
  waits : (s.side true).main = .waiting ∧ (s.side true).notify = none ∨ (s.side true).closed = true
  own : (s.side true).answers = []

theorem orphan_step {s s' : Sys} {act : Act} (h : Orphan s) (ha : act ≠ .tick false) (hs : step 3 s act = some s') : Orphan s' := by
  obtain ⟨h1, h2, h3, h4, h5⟩ := h
  have i1 := idle_stays hs false ha h1
  unfold step at hs
  split at hs
  · cases hs
  rename_i hstop
  cases act with
  | loop x skips now =>
    cases x
    · simp [stepOpen, loopStep, h1] at hs
    · rcases h4 with h4 | h4
      · simp [stepOpen, loopStep, h4.1] at hs
      · exact absurd (by simp [Sys.stopped, Act.actor, h4]) hstop
  | retry x =>
    cases x
    · simp [stepOpen, h1] at hs
    · rcases h4 with h4 | h4
      · simp only [stepOpen] at hs
        split at hs <;> cases hs
        constructor <;> simp [Side.take, h4, Sys.send, h1, h2, h3, h5]
      · exact absurd (by simp [Sys.stopped, Act.actor, h4]) hstop
  | done x =>
    cases x
    · simp [stepOpen, h1] at hs
    · rcases h4 with h4 | h4
      · simp [stepOpen, h4.2] at hs
      · exact absurd (by simp [Sys.stopped, Act.actor, h4]) hstop
  | timeout x =>
    cases x
    · simp [stepOpen, h1] at hs
    · rcases h4 with h4 | h4
      · simp only [stepOpen] at hs
        split at hs <;> cases hs
        constructor <;> simp [Side.take, h4, h1, h2, h3, h5]
      · exact absurd (by simp [Sys.stopped, Act.actor, h4]) hstop
  | tick x =>
    cases x
    · exact absurd rfl ha
    · rcases h4 with h4 | h4
      · simp [stepOpen, h4.1] at hs
      · exact absurd (by simp [Sys.stopped, Act.actor, h4]) hstop
  | recv x i =>
    cases x
    · simp only [stepOpen] at hs
      split at hs <;> cases hs
      constructor <;> simp [Side.handle, *]
    · simp [stepOpen, h3] at hs
  | answer x i now =>
    cases x
    · simp [stepOpen, answerStep, h2] at hs
    · simp [stepOpen, answerStep, h5] at hs
  | lose x i =>
    cases x
    · simp only [stepOpen] at hs
      split at hs <;> cases hs
      constructor <;> simp [*]
    · simp [stepOpen, h3] at hs

/-- C106 fails although nothing is lost.  In the mode "disable" both sides have got the key of the other one, side a is done, and b has
reported its success too, but its loop waits until it gives up, unless the ticker of a comes first.  In the default mode the awaited key is
the agreed one, and the side gives up if its time-out comes before another answer. -/
theorem C106_violated :
    (run 3 .init staleDisable = some ignored ∧ staleDisable.all (fun act => !act.isLoss) = true ∧
      Finished ignored false ∧ Finished ignored true ∧
      (∀ s', Path 3 (fun act => act != .tick false) ignored s' → (s'.side true).main = .waiting ∨ GivenUp s' true) ∧
      ∃ s', step 3 ignored (.timeout true) = some s' ∧ GivenUp s' true) ∧
    (run 1 .init staleDefault = some dropped ∧ staleDefault.all (fun act => !act.isLoss) = true ∧
      (dropped.side false).created = (dropped.side false).awaited ∧ ∃ s', step 1 dropped (.timeout false) = some s' ∧ GivenUp s' false) := by
  refine ⟨⟨by decide +kernel, by decide, by decide, by decide, fun s' hp => ?_, _, rfl, by decide⟩,
    by decide +kernel, by decide, by decide, _, rfl, by decide⟩
  have H : Orphan s' := by
    generalize hs : ignored = s0 at hp
    induction hp with
    | refl => subst hs; constructor <;> decide
    | step act ha _ hst ih => exact orphan_step ih (by simpa using ha) hst
  rcases H.waits with h | h
  · exact .inl h.1
  · exact .inr h

/-- A loop that waits for a key with a later stamp than the next one. -/
structure Hopeless (t : Side) : Prop where
  main : t.main = .waiting ∨ t.closed = true
  key : t.hasKey = true
  order : t.next < t.awaited
  note : ∀ v, t.notify = some v → v < t.awaited
  answers : ∀ a ∈ t.answers, a ≠ .check ∧ a ≠ .make

theorem hopeless_moves {mode : Nat} {t t' : Side} (h : Moves mode t t') (hc : t.closed = false) (g : Hopeless t) : Hopeless t' := by
  obtain ⟨h1, h2, h3, h4, h5⟩ := g
  cases h with
  | gen now hm => grind
  | take hm => constructor <;> simp only [Side.take] <;> split <;> grind
  | giveUp hm hn => clear hn; constructor <;> simp only [Side.take] <;> (try split) <;> grind
  | handle m => cases hn : t.notify <;> constructor <;> simp only [Side.handle, hn] <;> (repeat' split) <;> grind [Option.getD]
  | aMake i now ha => grind
  | aStart i ha => constructor <;> grind [mem_set]
  | aSkip i ha => constructor <;> grind [mem_set]
  | aCheck i ha => grind
  | aSend i ha => constructor <;> grind [List.mem_of_mem_eraseIdx]
  | _ => constructor <;> grind

/-- The loop of a makes its key while an answering goroutine, which has found that there is none, makes another; meanwhile the clock has
been set back by one. -/
def clockBack : List Act :=
  [.loop true true 1, .loop true true 1, .loop true true 1, .recv false 0, .answer false 0 0, .answer false 0 0, .loop false true 0,
    .loop false true 100, .answer false 0 99, .answer false 0 99, .answer false 0 99, .loop false true 99, .recv true 1, .answer true 0 9,
    .answer true 0 9, .recv false 0]

/-- The state that this leads to. -/
def outrun : Sys :=
  ⟨⟨99, 99, true, .waiting, 100, some 99, [], true, false, 1, false⟩, ⟨0, 1, true, .waiting, 1, none, [], false, false, 0, false⟩, [], [true]⟩

/-- C106 fails also when the clock is set back (which the comment at key_exchanger.go:588 expects): the loop of a waits for the stamp of
a key that has been replaced.  However many exchanges succeed, it goes on waiting until it gives up. -/
theorem C106_clock : run 1 .init clockBack = some outrun ∧ Finished outrun false ∧
    ∀ s', Path 1 (fun _ => true) outrun s' → (s'.side false).main = .waiting ∨ GivenUp s' false := by
  refine ⟨by decide +kernel, by decide, fun s' hp => ?_⟩
  have H : Hopeless (s'.side false) := by
    generalize hs : outrun = s0 at hp
    induction hp with
    | refl => subst hs; constructor <;> simp [outrun, Sys.side]
    | step act ha _ hst ih =>
      rename_i s1 s2 _
      cases hc : (s1.side false).closed with
      | true => rw [closed_stays hst false hc]; exact ih
      | false => exact hopeless_moves (step_moves hst false) hc ih
  exact H.main

/-! ## C107 -/

/-- In the mode "answer and wait": what shows that side `x` has a key. -/
structure Shows (s : Sys) (x : Bool) : Prop where
  asked : false ∈ s.inbox (!x) → (s.side x).hasKey = true
  answering : (s.side (!x)).answers ≠ [] → (s.side x).hasKey = true
  answered : true ∈ s.inbox x → (s.side x).hasKey = true
  done : 0 < (s.side x).successes → (s.side x).hasKey = true

theorem key_moves {mode : Nat} {t t' : Side} (h : Moves mode t t') (hk : t.hasKey = true) : t'.hasKey = true := by
  cases h with
  | gen now hm => simp only [Side.updateLocalKey, Side.newKey]; split <;> simp [hk]
  | take hm => simp only [Side.take]; split <;> simp [hk]
  | giveUp hm hn => simp only [Side.take]; split <;> simp [hk]
  | handle m => simp only [Side.handle]; (repeat' split) <;> simp [hk]
  | aMake i now ha => simp [Side.newKey]
  | _ => simp [hk]

@[simp] theorem take_answers (t : Side) : t.take.answers = t.answers := by
  unfold Side.take; split <;> rfl

@[simp] theorem take_successes' (t : Side) : t.take.successes = t.successes := by
  unfold Side.take; split <;> rfl

@[simp] theorem update_answers (t : Side) (now : Nat) : (t.updateLocalKey now).answers = t.answers := by
  unfold Side.updateLocalKey Side.newKey; split <;> rfl

@[simp] theorem update_successes (t : Side) (now : Nat) : (t.updateLocalKey now).successes = t.successes := by
  unfold Side.updateLocalKey Side.newKey; split <;> rfl

/-- What a step needs for what it leaves behind. -/
structure Needs (s s' : Sys) (x : Bool) : Prop where
  asked : false ∈ s'.inbox (!x) → false ∈ s.inbox (!x) ∨ (s.side x).hasKey = true
  answering : (s'.side (!x)).answers ≠ [] → (s.side (!x)).answers ≠ [] ∨ false ∈ s.inbox (!x)
  answered : true ∈ s'.inbox x → true ∈ s.inbox x ∨ (s.side (!x)).answers ≠ []
  done : 0 < (s'.side x).successes → 0 < (s.side x).successes ∨ true ∈ s.inbox x

theorem mem_inbox {l : List Bool} {i : Nat} {m : Bool} (h : l[i]? = some m) : m ∈ l := List.mem_of_getElem? h

theorem needs_step {s s' : Sys} {act : Act} (hg : ∀ x, Good 1 (s.side x)) (hs : step 1 s act = some s') (x : Bool) : Needs s s' x := by
  unfold step at hs
  split at hs
  · cases hs
  cases act with
  | loop y skips now =>
    simp only [stepOpen, loopStep] at hs
    split at hs <;> cases hs
    · constructor <;> simp <;> (repeat' split) <;> simp_all
    · constructor <;> simp <;> (repeat' split) <;> simp_all
    · rename_i hm
      have hk := (hg y).sent (.inr hm)
      cases x <;> cases y <;> constructor <;> simp [Sys.send] <;> simp_all
  | retry y =>
    simp only [stepOpen] at hs
    split at hs <;> cases hs
    rename_i hm
    have hk := (hg y).sent (.inl hm)
    split <;> cases x <;> cases y <;> constructor <;> simp [Sys.send] <;> simp_all
  | done y =>
    simp only [stepOpen] at hs
    split at hs <;> cases hs
    cases x <;> cases y <;> constructor <;> simp <;> simp_all
  | timeout y =>
    simp only [stepOpen] at hs
    split at hs <;> cases hs
    split <;> cases x <;> cases y <;> constructor <;> simp <;> simp_all
  | tick y =>
    simp only [stepOpen] at hs
    split at hs <;> cases hs
    cases x <;> cases y <;> constructor <;> simp <;> simp_all
  | recv y i =>
    simp only [stepOpen] at hs
    split at hs <;> cases hs
    rename_i m hm
    have := mem_inbox hm
    have he : ∀ b, b ∈ (s.inbox y).eraseIdx i → b ∈ s.inbox y := fun b => List.mem_of_mem_eraseIdx
    cases x <;> cases y <;> cases m <;> constructor <;> simp [Side.handle] <;> simp_all
  | answer y i now =>
    simp only [stepOpen, answerStep] at hs
    split at hs <;> cases hs <;> rename_i ha <;>
      have hn : (s.side y).answers ≠ [] := (fun e => by simp [e] at ha) <;>
      cases x <;> cases y <;> constructor <;> simp [Sys.send, Side.newKey] <;> simp_all
  | lose y i =>
    simp only [stepOpen] at hs
    split at hs <;> cases hs
    have he : ∀ b, b ∈ (s.inbox y).eraseIdx i → b ∈ s.inbox y := fun b => List.mem_of_mem_eraseIdx
    cases x <;> cases y <;> constructor <;> simp <;> simp_all

theorem shows {s : Sys} (h : Reachable 1 s) (x : Bool) : Shows s x := by
  induction h with
  | init => cases x <;> constructor <;> simp [Sys.init, Side.init, Sys.inbox, Sys.side]
  | step act hr hs ih =>
    have hn := needs_step (good hr) hs x
    have hk := key_moves (step_moves hs x)
    exact ⟨fun h => hk ((hn.asked h).elim ih.asked id), fun h => hk ((hn.answering h).elim ih.answering ih.asked),
      fun h => hk ((hn.answered h).elim ih.answered ih.answering), fun h => hk ((hn.done h).elim ih.done ih.answered)⟩

/-- C107 (restriction that holds): in the default mode "answer and wait", whatever is lost or delayed: when a side reports the success of
the key exchange, it has made a key.
Missing for the full C107: the other modes, see `C107_violated`. -/
theorem C107_partial {s : Sys} (h : Reachable 1 s) (x : Bool) (hf : Finished s x) : (s.side x).hasKey = true := (shows h x).done hf

/-- C107 fails in the modes "answer" and "disable": the message of the other side counts as success although this side has no key yet, so
that the session becomes Established and OnConnect is called (if there is no negotiation) while there is nothing to encrypt with. -/
theorem C107_violated (mode : Nat) (hm : mode = 2 ∨ mode = 3) : ∃ acts s, run mode .init acts = some s ∧ Finished s false ∧
    (s.side false).hasKey = false := by
  refine ⟨[.loop true true 1, .loop true true 1, .loop true true 1, .recv false 0], ?_⟩
  rcases hm with rfl | rfl
  · exact ⟨_, rfl, by decide, by decide⟩
  · exact ⟨_, rfl, by decide, by decide⟩

/-- Not vacuous: side a finishes in the default mode. -/
example : (run 1 .init [.loop false true 1, .loop false true 1, .loop false true 1, .recv true 0, .answer true 0 2, .answer true 0 2,
      .answer true 0 2, .answer true 0 2, .answer true 0 2, .recv false 0]).any (fun s => decide (Finished s false)) = true := by
  decide +kernel

#print axioms C105_renewed
#print axioms C106_partial
#print axioms C106_violated
#print axioms C106_clock
#print axioms C107_partial
#print axioms C107_violated

end Verif.Handshake
