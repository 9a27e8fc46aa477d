import Verif.Spec.Handshake
/-!
# Invariants of the first key exchange
-/
namespace Verif.Handshake

@[simp] theorem side_put (s : Sys) (x y : Bool) (t : Side) : (s.put x t).side y = if x = y then t else s.side y := by
  cases x <;> cases y <;> rfl

@[simp] theorem side_setInbox (s : Sys) (x y : Bool) (l : List Bool) : (s.setInbox x l).side y = s.side y := by
  cases x <;> cases y <;> rfl

@[simp] theorem side_send (s : Sys) (x y m : Bool) : (s.send x m).side y = s.side y := side_setInbox ..

@[simp] theorem inbox_put (s : Sys) (x y : Bool) (t : Side) : (s.put x t).inbox y = s.inbox y := by
  cases x <;> cases y <;> rfl

@[simp] theorem inbox_setInbox (s : Sys) (x y : Bool) (l : List Bool) : (s.setInbox x l).inbox y = if x = y then l else s.inbox y := by
  cases x <;> cases y <;> rfl

/-- What one step does to a side. -/
inductive Moves (mode : Nat) : Side → Side → Prop
  | same (t) : Moves mode t t
  | skip (t : Side) : t.main = .start → t.skip = true → Moves mode t { t with main := .idle, skipped := true }
  | begin (t : Side) : t.main = .start → Moves mode t { t with main := .gen, notify := none }
  | gen (t : Side) (now : Nat) : t.main = .gen → Moves mode t { t.updateLocalKey now with main := .send, awaited := (t.updateLocalKey now).next }
  | send (t : Side) : t.main = .send → Moves mode t { t with main := .waiting }
  | take (t : Side) : t.main = .waiting → Moves mode t t.take
  | giveUp (t : Side) : t.main = .waiting → t.take.main ≠ .idle → Moves mode t { t.take with main := .idle, closed := true }
  | tick (t : Side) : t.main = .idle → Moves mode t { t with main := .start }
  | handle (t : Side) (m : Bool) : Moves mode t (t.handle mode m)
  | aStart (t : Side) (i : Nat) : t.answers[i]? = some .start → Moves mode t { t with answers := t.answers.set i (if t.hasKey then .send else .check) }
  | aCheck (t : Side) (i : Nat) : t.answers[i]? = some .check →
      Moves mode t { t with answers := t.answers.set i (if t.next > t.created then .skip else .make) }
  | aMake (t : Side) (i now : Nat) : t.answers[i]? = some .make → Moves mode t { t.newKey now with answers := t.answers.set i .skip }
  | aSkip (t : Side) (i : Nat) : t.answers[i]? = some .skip → Moves mode t { t with skip := true, answers := t.answers.set i .send }
  | aSend (t : Side) (i : Nat) : t.answers[i]? = some .send → Moves mode t { t with answers := t.answers.eraseIdx i }

theorem step_moves {mode : Nat} {s s' : Sys} {act : Act} (h : step mode s act = some s') (y : Bool) : Moves mode (s.side y) (s'.side y) := by
  unfold step at h
  split at h
  · cases h
  cases act with
  | loop x skips now =>
    simp only [stepOpen, loopStep] at h
    split at h <;> cases h
    · rename_i hm
      simp only [side_put]
      split
      · rename_i e; subst e
        split
        · rename_i hs; exact .skip _ hm (by simp at hs; exact hs.1)
        · exact .begin _ hm
      · exact .same _
    · rename_i hm
      simp only [side_put]
      split
      · rename_i e; subst e; exact .gen _ now hm
      · exact .same _
    · rename_i hm
      simp only [side_send, side_put]
      split
      · rename_i e; subst e; exact .send _ hm
      · exact .same _
  | retry x =>
    simp only [stepOpen] at h
    split at h <;> cases h
    rename_i hm
    split <;> simp only [side_send, side_put] <;> split
    · rename_i e; subst e; exact .take _ hm
    · exact .same _
    · rename_i e; subst e; exact .take _ hm
    · exact .same _
  | done x =>
    simp only [stepOpen] at h
    split at h <;> cases h
    rename_i hm
    simp only [side_put]
    split
    · rename_i e; subst e; exact .take _ hm.1
    · exact .same _
  | timeout x =>
    simp only [stepOpen] at h
    split at h <;> cases h
    rename_i hm
    simp only [side_put]
    split
    · rename_i e; subst e
      split
      · exact .take _ hm
      · rename_i hn; exact .giveUp _ hm hn
    · exact .same _
  | tick x =>
    simp only [stepOpen] at h
    split at h <;> cases h
    rename_i hm
    simp only [side_put]
    split
    · rename_i e; subst e; exact .tick _ hm
    · exact .same _
  | recv x i =>
    simp only [stepOpen] at h
    split at h <;> cases h
    simp only [side_put, side_setInbox]
    split
    · rename_i e; subst e; exact .handle _ _
    · exact .same _
  | answer x i now =>
    simp only [stepOpen, answerStep] at h
    split at h <;> cases h <;> rename_i ha <;> simp only [side_send, side_put] <;> split
    · rename_i e; subst e; exact .aStart _ i ha
    · exact .same _
    · rename_i e; subst e; exact .aCheck _ i ha
    · exact .same _
    · rename_i e; subst e; exact .aMake _ i now ha
    · exact .same _
    · rename_i e; subst e; exact .aSkip _ i ha
    · exact .same _
    · rename_i e; subst e; exact .aSend _ i ha
    · exact .same _
  | lose x i =>
    simp only [stepOpen] at h
    split at h <;> cases h
    simp only [side_setInbox]
    exact .same _

/-- Only its ticker makes an idle loop go on. -/
theorem idle_stays {mode : Nat} {s s' : Sys} {act : Act} (h : step mode s act = some s') (x : Bool) (ha : act ≠ .tick x)
    (hi : (s.side x).main = .idle) : (s'.side x).main = .idle := by
  unfold step at h
  split at h
  · cases h
  cases act with
  | loop y skips now =>
    simp only [stepOpen, loopStep] at h
    split at h <;> cases h <;> simp only [side_send, side_put] <;> split <;> grind
  | retry y =>
    simp only [stepOpen] at h
    split at h <;> cases h
    split <;> simp only [side_send, side_put] <;> split <;> grind
  | done y =>
    simp only [stepOpen] at h
    split at h <;> cases h
    simp only [side_put]; split <;> grind
  | timeout y =>
    simp only [stepOpen] at h
    split at h <;> cases h
    simp only [side_put]; split <;> grind
  | tick y =>
    simp only [stepOpen] at h
    split at h <;> cases h
    simp only [side_put]; split <;> grind
  | recv y i =>
    simp only [stepOpen] at h
    split at h <;> cases h
    simp only [side_put, side_setInbox]
    split
    · rename_i e; subst e; simp only [Side.handle]; (repeat' split) <;> exact hi
    · exact hi
  | answer y i now =>
    simp only [stepOpen, answerStep] at h
    split at h <;> cases h <;> simp only [side_send, side_put] <;> split <;> (try simp only [Side.newKey]) <;> grind
  | lose y i =>
    simp only [stepOpen] at h
    split at h <;> cases h
    simpa using hi

/-- Closed sides do nothing. -/
theorem closed_stays {mode : Nat} {s s' : Sys} {act : Act} (h : step mode s act = some s') (x : Bool)
    (hc : (s.side x).closed = true) : s'.side x = s.side x := by
  unfold step at h
  split at h
  · cases h
  rename_i hs
  have hx : act.actor ≠ some x := fun e => hs (by simp [Sys.stopped, e, hc])
  cases act with
  | loop y skips now =>
    simp only [stepOpen, loopStep] at h
    split at h <;> cases h <;> simp only [side_send, side_put] <;> split <;> grind [Act.actor]
  | retry y =>
    simp only [stepOpen] at h
    split at h <;> cases h
    split <;> simp only [side_send, side_put] <;> split <;> grind [Act.actor]
  | done y =>
    simp only [stepOpen] at h
    split at h <;> cases h
    simp only [side_put]; split <;> grind [Act.actor]
  | timeout y =>
    simp only [stepOpen] at h
    split at h <;> cases h
    simp only [side_put]; split <;> grind [Act.actor]
  | tick y =>
    simp only [stepOpen] at h
    split at h <;> cases h
    simp only [side_put]; split <;> grind [Act.actor]
  | recv y i =>
    simp only [stepOpen] at h
    split at h <;> cases h
    simp only [side_put, side_setInbox]
    split <;> grind [Act.actor]
  | answer y i now =>
    simp only [stepOpen, answerStep] at h
    split at h <;> cases h <;> simp only [side_send, side_put] <;> split <;> grind [Act.actor]
  | lose y i =>
    simp only [stepOpen] at h
    split at h <;> cases h
    simp

/-- An invariant of single sides holds in all states. -/
theorem invariant {mode : Nat} {P : Side → Prop} (h0 : P .init) (h1 : ∀ t t', Moves mode t t' → P t → P t') {s : Sys}
    (h : Reachable mode s) (x : Bool) : P (s.side x) := by
  induction h with
  | init => cases x <;> exact h0
  | step act _ hs ih => exact h1 _ _ (step_moves hs x) ih

/-- A side that is at the ticker has finished, has given up, or has skipped its update; it has no notification before it has finished. -/
structure Good (mode : Nat) (t : Side) : Prop where
  ticker : t.main = .idle → 0 < t.successes ∨ t.closed = true ∨ t.skipped = true
  note : t.notify ≠ none → 0 < t.successes
  skips : t.skipped = true → t.skip = true
  byAnswer : mode ≠ 1 → t.skip = true ∨ t.answers ≠ [] → 0 < t.successes
  sent : t.main = .waiting ∨ t.main = .send → t.hasKey = true
  stamp : t.created < t.next → t.hasKey = true

theorem good_moves {mode : Nat} {t t' : Side} (h : Moves mode t t') (g : Good mode t) : Good mode t' := by
  obtain ⟨h1, h2, h3, h4, h5, h6⟩ := g
  cases h with
  | same => exact ⟨h1, h2, h3, h4, h5, h6⟩
  | skip hm hs => constructor <;> simp_all
  | begin hm => constructor <;> simp_all
  | gen now hm => constructor <;> simp only [Side.updateLocalKey, Side.newKey] <;> split <;> simp_all
  | send hm => constructor <;> simp_all
  | take hm => constructor <;> simp only [Side.take] <;> split <;> simp_all
  | giveUp hm hn => clear hn; constructor <;> simp only [Side.take] <;> split <;> simp_all
  | tick hm => constructor <;> simp_all
  | handle m => constructor <;> simp only [Side.handle] <;> split <;> (try split) <;> simp_all
  | aStart i ha => constructor <;> simp_all
  | aCheck i ha => constructor <;> simp_all
  | aMake i now ha => constructor <;> simp_all [Side.newKey]
  | aSkip i ha =>
    have hn : t.answers ≠ [] := by intro e; simp [e] at ha
    constructor <;> simp_all
  | aSend i ha =>
    have hn : t.answers ≠ [] := by intro e; simp [e] at ha
    constructor <;> simp_all

theorem good_init (mode : Nat) : Good mode .init := by constructor <;> simp [Side.init]

theorem good {mode : Nat} {s : Sys} (h : Reachable mode s) (x : Bool) : Good mode (s.side x) :=
  invariant (good_init mode) (fun _ _ => good_moves) h x

theorem reachable_path {mode : Nat} {p : Act → Bool} {s s' : Sys} (h : Reachable mode s) (hp : Path mode p s s') : Reachable mode s' := by
  induction hp with
  | refl => exact h
  | step act _ _ hs ih => exact .step act ih hs

theorem path_run {mode : Nat} {p : Act → Bool} {s s' : Sys} {acts : List Act} (hp : acts.all p = true) (h : run mode s acts = some s') :
    Path mode p s s' := by
  suffices H : ∀ (acts : List Act) (s1 : Sys), Path mode p s s1 → acts.all p = true → run mode s1 acts = some s' → Path mode p s s' from
    H acts s (.refl s) hp h
  intro acts
  induction acts with
  | nil => intro s1 h1 _ h; cases h; exact h1
  | cons a as ih =>
    intro s1 h1 hp h
    simp only [List.all_cons, Bool.and_eq_true] at hp
    simp only [run] at h
    cases hs : step mode s1 a with
    | none => simp [hs] at h
    | some s2 =>
      rw [hs] at h
      exact ih s2 (.step a hp.1 h1 hs) hp.2 h

theorem Path.trans {mode : Nat} {p : Act → Bool} {s s1 s2 : Sys} (h1 : Path mode p s s1) (h2 : Path mode p s1 s2) : Path mode p s s2 := by
  induction h2 with
  | refl => exact h1
  | step act hp _ hs ih => exact .step act hp ih hs

theorem Path.head {mode : Nat} {p : Act → Bool} {s s1 s2 : Sys} (act : Act) (hp : p act = true) (hs : Handshake.step mode s act = some s1)
    (h2 : Path mode p s1 s2) : Path mode p s s2 := Path.trans (.step act hp (.refl s) hs) h2

theorem reachable_run {mode : Nat} {s s' : Sys} {acts : List Act} (hr : Reachable mode s) (h : run mode s acts = some s') : Reachable mode s' :=
  reachable_path hr (path_run (p := fun _ => true) (by simp) h)

end Verif.Handshake
