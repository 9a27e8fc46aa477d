import Verif.Model.Output
/-!
# C118: the options decide about the output; C119: the output does not disturb the session
-/
namespace Verif.Output

variable {ε : Type}

/-! ### Spec -/

/-- Executions in which the user keeps up: never more than 1024 logged entries which they have not received. -/
inductive KeepsUp (cfg : Cfg) : State ε → Prop
  | init : KeepsUp cfg State.init
  | step {s s'} (a : Act ε) : KeepsUp cfg s → step cfg s a = .ok s' →
      s'.infoLogged.length ≤ s'.infoGot.length + 1024 → s'.debugLogged.length ≤ s'.debugGot.length + 1024 → KeepsUp cfg s'

/-- Receives all that is there. -/
inductive Drained (cfg : Cfg) (a : Act ε) : State ε → State ε → Prop
  | done {s} : step cfg s a = .block ∨ step cfg s a = .ok { s with infoEnd := true } ∨
      step cfg s a = .ok { s with debugEnd := true } → Drained cfg a s s
  | more {s s' s''} : step cfg s a = .ok s' → Drained cfg a s' s'' → Drained cfg a s s''

/-- What the documentation says about the INFO channel: with `EnableInfo` the user gets every message, in order, and
without nothing. -/
def InfoAsDocumented (cfg : Cfg) (s : State ε) : Prop :=
  (cfg.enableInfo = true → s.info.closed = false → ∃ s', Drained cfg .recvInfo s s' ∧ s'.infoGot = s.infoLogged) ∧
  (cfg.enableInfo = false → s.infoGot = [] ∧ ∀ s', Drained cfg .recvInfo s s' → s'.infoGot = [])

/-- ... about the DEBUG channel. -/
def DebugAsDocumented (cfg : Cfg) (s : State ε) : Prop :=
  (cfg.enableDebug = true → cfg.tag = true → s.debug.closed = false →
    ∃ s', Drained cfg .recvDebug s s' ∧ s'.debugGot = s.debugLogged) ∧
  (cfg.enableDebug = false ∨ cfg.tag = false → s.debugGot = [] ∧ ∀ s', Drained cfg .recvDebug s s' → s'.debugGot = [])

/-! ### Channels -/

theorem infof_eq (cfg : Cfg) (c : Chan ε) (e : ε) : infof cfg c e =
    .ok (if cfg.enableDebug = true ∧ c.closed = false ∧ c.buf.length < capacity then { c with buf := c.buf ++ [e] } else c) := by
  obtain ⟨b, cl⟩ := c
  unfold infof trySend
  cases cfg.enableDebug <;> cases cl <;> simp [recovering]
  by_cases h : b.length < capacity <;> simp [h]

theorem debugf_eq (cfg : Cfg) (c : Chan ε) (e : ε) : debugf cfg c e =
    .ok (if (cfg.tag = true ∧ cfg.enableDebug = true) ∧ c.closed = false ∧ c.buf.length < capacity then { c with buf := c.buf ++ [e] } else c) := by
  obtain ⟨b, cl⟩ := c
  unfold debugf trySend
  cases cfg.tag <;> cases cfg.enableDebug <;> cases cl <;> simp [recovering]
  by_cases h : b.length < capacity <;> simp [h]

/-- What is true of a channel with its history; `on`: the option. -/
structure ChanInv (on : Prop) (c : Chan ε) (logged got : List ε) (told : Bool) : Prop where
  sub : (got ++ c.buf).Sublist logged
  len : c.buf.length ≤ 1024
  off : ¬ on → got ++ c.buf = []
  told : told = true → c.closed = true ∧ c.buf = []

theorem ChanInv.log {on : Prop} {c : Chan ε} {logged got : List ε} {told : Bool} (h : ChanInv on c logged got told) (e : ε) [Decidable on] :
    ChanInv on (if on ∧ c.closed = false ∧ c.buf.length < capacity then { c with buf := c.buf ++ [e] } else c) (logged ++ [e]) got told := by
  split
  · rename_i hc
    refine ⟨?_, ?_, fun hn => absurd hc.1 hn, fun ht => ?_⟩
    · show (got ++ (c.buf ++ [e])).Sublist _
      rw [← List.append_assoc]
      exact h.sub.append (List.Sublist.refl _)
    · have := hc.2.2
      simp only [List.length_append, List.length_singleton]
      unfold capacity at this
      omega
    · have := (h.told ht).1
      rw [hc.2.1] at this; cases this
  · exact ⟨h.sub.trans (List.sublist_append_left _ _), h.len, h.off, h.told⟩

theorem ChanInv.recv {on : Prop} {c c' : Chan ε} {logged got : List ε} {told : Bool} {e : ε} (h : ChanInv on c logged got told)
    (hr : recv c = .ok (some e, c')) : ChanInv on c' logged (got ++ [e]) told ∧ got ++ [e] ++ c'.buf = got ++ c.buf ∧
      c'.closed = c.closed := by
  unfold Output.recv at hr
  split at hr
  · rename_i x rest hb
    cases hr
    have he : got ++ [e] ++ rest = got ++ c.buf := by rw [hb]; simp
    refine ⟨⟨?_, ?_, ?_, ?_⟩, he, rfl⟩
    · show (got ++ [e] ++ rest).Sublist logged
      rw [he]; exact h.sub
    · have := h.len; rw [hb] at this; simp only [List.length_cons] at this; show rest.length ≤ 1024; omega
    · intro hn; show got ++ [e] ++ rest = []; rw [he]; exact h.off hn
    · intro ht; have := (h.told ht).2; rw [hb] at this; cases this
  · split at hr <;> cases hr

theorem recv_end {c c' : Chan ε} (hr : recv c = .ok (none, c')) : c.closed = true ∧ c.buf = [] ∧ c' = c := by
  unfold Output.recv at hr
  split at hr
  · cases hr
  · rename_i hb
    split at hr <;> cases hr
    rename_i hc
    exact ⟨hc, hb, rfl⟩

structure Inv (cfg : Cfg) (s : State ε) : Prop where
  info : ChanInv (cfg.enableDebug = true) s.info s.infoLogged s.infoGot s.infoEnd
  debug : ChanInv (cfg.tag = true ∧ cfg.enableDebug = true) s.debug s.debugLogged s.debugGot s.debugEnd
  infoClosed : s.info.closed = true ↔ s.reader = .over
  debugClosed : s.debug.closed = true ↔ s.reader ≠ .running

theorem closed_keep {p : Prop} [Decidable p] (c : Chan ε) (e : ε) :
    (if p then { c with buf := c.buf ++ [e] } else c).closed = c.closed := by split <;> rfl

theorem inv_step {cfg : Cfg} {s s' : State ε} {a : Act ε} (h : Inv cfg s) (hs : step cfg s a = .ok s') : Inv cfg s' := by
  cases a with
  | info e =>
    simp only [step, infof_eq, Outcome.ok.injEq] at hs
    subst hs
    exact ⟨h.info.log e, h.debug, by dsimp only; rw [closed_keep]; exact h.infoClosed, h.debugClosed⟩
  | debug e =>
    simp only [step, debugf_eq, Outcome.ok.injEq] at hs
    subst hs
    exact ⟨h.info, h.debug.log e, h.infoClosed, by dsimp only; rw [closed_keep]; exact h.debugClosed⟩
  | cleanup =>
    have h3 := h.infoClosed
    have h4 := h.debugClosed
    simp only [step, close] at hs
    cases hr : s.reader with
    | running =>
      rw [hr] at hs h3 h4
      have hd : s.debug.closed = false := by simpa using h4
      rw [hd] at hs
      simp only [Bool.false_eq_true, if_false, Outcome.ok.injEq] at hs
      subst hs
      refine ⟨h.info, ⟨h.debug.sub, h.debug.len, h.debug.off, fun ht => ⟨rfl, (h.debug.told ht).2⟩⟩, ?_, by simp⟩
      simpa using h3
    | debugClosed =>
      rw [hr] at hs h3 h4
      have hd : s.info.closed = false := by simpa using h3
      rw [hd] at hs
      simp only [Bool.false_eq_true, if_false, Outcome.ok.injEq] at hs
      subst hs
      refine ⟨⟨h.info.sub, h.info.len, h.info.off, fun ht => ⟨rfl, (h.info.told ht).2⟩⟩, h.debug, by simp, ?_⟩
      simpa using h4
    | over => rw [hr] at hs; cases hs
  | recvInfo =>
    simp only [step] at hs
    split at hs <;> try (cases hs; done)
    · rename_i e c hr
      cases hs
      obtain ⟨h1, -, h2⟩ := h.info.recv hr
      exact ⟨h1, h.debug, by dsimp only; rw [h2]; exact h.infoClosed, h.debugClosed⟩
    · rename_i c hr
      cases hs
      obtain ⟨h1, h2, -⟩ := recv_end hr
      exact ⟨⟨h.info.sub, h.info.len, h.info.off, fun _ => ⟨h1, h2⟩⟩, h.debug, h.infoClosed, h.debugClosed⟩
  | recvDebug =>
    simp only [step] at hs
    split at hs <;> try (cases hs; done)
    · rename_i e c hr
      cases hs
      obtain ⟨h1, -, h2⟩ := h.debug.recv hr
      exact ⟨h.info, h1, h.infoClosed, by dsimp only; rw [h2]; exact h.debugClosed⟩
    · rename_i c hr
      cases hs
      obtain ⟨h1, h2, -⟩ := recv_end hr
      exact ⟨h.info, ⟨h.debug.sub, h.debug.len, h.debug.off, fun _ => ⟨h1, h2⟩⟩, h.infoClosed, h.debugClosed⟩

theorem inv_reachable {cfg : Cfg} {s : State ε} (hr : Reachable cfg s) : Inv cfg s := by
  induction hr with
  | init => exact ⟨⟨by simp [State.init], by simp [State.init], by simp [State.init], by simp [State.init]⟩,
      ⟨by simp [State.init], by simp [State.init], by simp [State.init], by simp [State.init]⟩, by simp [State.init], by simp [State.init]⟩
  | step a _ hs ih => exact inv_step ih hs

theorem KeepsUp.reachable {cfg : Cfg} {s : State ε} (h : KeepsUp cfg s) : Reachable cfg s := by
  induction h with
  | init => exact .init
  | step a _ hs _ _ ih => exact .step a ih hs

/-- Nothing is lost while the user keeps up and the channel is open. -/
theorem keeps_all {cfg : Cfg} {s : State ε} (h : KeepsUp cfg s) (hon : cfg.enableDebug = true) :
    (s.info.closed = false → s.infoGot ++ s.info.buf = s.infoLogged) ∧
    (cfg.tag = true → s.debug.closed = false → s.debugGot ++ s.debug.buf = s.debugLogged) := by
  induction h with
  | init => simp [State.init]
  | @step s s' a hk hs hl1 hl2 ih =>
    obtain ⟨ih1, ih2⟩ := ih
    have hinv := inv_reachable hk.reachable
    cases a with
    | info e =>
      simp only [step, infof_eq, Outcome.ok.injEq] at hs
      subst hs
      refine ⟨?_, ih2⟩
      dsimp only at hl1 ⊢
      rw [closed_keep]
      intro hc
      have h1 := ih1 hc
      have h2 : s.info.buf.length < capacity := by
        have := congrArg List.length h1
        simp only [List.length_append, List.length_singleton] at this hl1
        unfold capacity; omega
      rw [if_pos ⟨hon, hc, h2⟩, ← h1, List.append_assoc]
    | debug e =>
      simp only [step, debugf_eq, Outcome.ok.injEq] at hs
      subst hs
      refine ⟨ih1, ?_⟩
      dsimp only at hl2 ⊢
      rw [closed_keep]
      intro ht hc
      have h1 := ih2 ht hc
      have h2 : s.debug.buf.length < capacity := by
        have := congrArg List.length h1
        simp only [List.length_append, List.length_singleton] at this hl2
        unfold capacity; omega
      rw [if_pos ⟨⟨ht, hon⟩, hc, h2⟩, ← h1, List.append_assoc]
    | cleanup =>
      simp only [step, close] at hs
      cases hr : s.reader <;> rw [hr] at hs
      · cases hd : s.debug.closed <;> rw [hd] at hs <;> cases hs
        exact ⟨ih1, fun _ h => (by cases h)⟩
      · cases hd : s.info.closed <;> rw [hd] at hs <;> cases hs
        exact ⟨fun h => (by cases h), ih2⟩
      · cases hs
    | recvInfo =>
      simp only [step] at hs
      split at hs <;> try (cases hs; done)
      · rename_i e c hr
        cases hs
        obtain ⟨-, h1, h2⟩ := hinv.info.recv hr
        refine ⟨?_, ih2⟩
        dsimp only
        rw [h1, h2]; exact ih1
      · cases hs; exact ⟨ih1, ih2⟩
    | recvDebug =>
      simp only [step] at hs
      split at hs <;> try (cases hs; done)
      · rename_i e c hr
        cases hs
        obtain ⟨-, h1, h2⟩ := hinv.debug.recv hr
        refine ⟨ih1, ?_⟩
        dsimp only
        rw [h1, h2]; exact ih2
      · cases hs; exact ⟨ih1, ih2⟩

/-- Receiving again and again gives what is in the channel. -/
theorem drain_info (cfg : Cfg) : ∀ (b : List ε) (s : State ε), s.info.buf = b →
    ∃ s', Drained cfg .recvInfo s s' ∧ s'.infoGot = s.infoGot ++ b ∧ s'.infoLogged = s.infoLogged := by
  intro b
  induction b with
  | nil =>
    intro s hb
    refine ⟨s, .done ?_, by simp, rfl⟩
    simp only [step, recv, hb]
    cases s.info.closed <;> simp
  | cons e b ih =>
    intro s hb
    obtain ⟨s', h1, h2, h3⟩ := ih { s with info := { s.info with buf := b }, infoGot := s.infoGot ++ [e] } rfl
    refine ⟨s', .more ?_ h1, by rw [h2]; simp, h3⟩
    simp only [step, recv, hb]

theorem drain_debug (cfg : Cfg) : ∀ (b : List ε) (s : State ε), s.debug.buf = b →
    ∃ s', Drained cfg .recvDebug s s' ∧ s'.debugGot = s.debugGot ++ b ∧ s'.debugLogged = s.debugLogged := by
  intro b
  induction b with
  | nil =>
    intro s hb
    refine ⟨s, .done ?_, by simp, rfl⟩
    simp only [step, recv, hb]
    cases s.debug.closed <;> simp
  | cons e b ih =>
    intro s hb
    obtain ⟨s', h1, h2, h3⟩ := ih { s with debug := { s.debug with buf := b }, debugGot := s.debugGot ++ [e] } rfl
    refine ⟨s', .more ?_ h1, by rw [h2]; simp, h3⟩
    simp only [step, recv, hb]

theorem Drained.reachable {cfg : Cfg} {a : Act ε} {s s' : State ε} (h : Drained cfg a s s') (hr : Reachable cfg s) : Reachable cfg s' := by
  induction h with
  | done _ => exact hr
  | more hs _ ih => exact ih (.step _ hr hs)

/-! ### C118 -/

/-- C118 for the DEBUG channel: a user who keeps up gets every message if the option is set and the tag was given, and
nothing otherwise. -/
theorem C118_debug {cfg : Cfg} {s : State ε} (h : KeepsUp cfg s) : DebugAsDocumented cfg s := by
  refine ⟨fun hon ht hc => ?_, fun hoff => ?_⟩
  · obtain ⟨s', h1, h2, -⟩ := drain_debug cfg _ s rfl
    exact ⟨s', h1, by rw [h2, (keeps_all h hon).2 ht hc]⟩
  · have hn : ¬ (cfg.tag = true ∧ cfg.enableDebug = true) := by
      rintro ⟨h1, h2⟩; rcases hoff with h3 | h3 <;> simp_all
    refine ⟨(List.append_eq_nil_iff.1 ((inv_reachable h.reachable).debug.off hn)).1, fun s' hd => ?_⟩
    exact (List.append_eq_nil_iff.1 ((inv_reachable (hd.reachable h.reachable)).debug.off hn)).1

/-- C118 for the INFO channel, the part that holds: if `EnableInfo` and `EnableDebug` are the same.  Missing: all other
options (`C118_violated`). -/
theorem C118_partial {cfg : Cfg} {s : State ε} (hcfg : cfg.enableInfo = cfg.enableDebug) (h : KeepsUp cfg s) :
    InfoAsDocumented cfg s := by
  refine ⟨fun hon hc => ?_, fun hoff => ?_⟩
  · obtain ⟨s', h1, h2, -⟩ := drain_info cfg _ s rfl
    exact ⟨s', h1, by rw [h2, (keeps_all h (by rw [← hcfg]; exact hon)).1 hc]⟩
  · have hn : ¬ (cfg.enableDebug = true) := by rw [← hcfg, hoff]; simp
    refine ⟨(List.append_eq_nil_iff.1 ((inv_reachable h.reachable).info.off hn)).1, fun s' hd => ?_⟩
    exact (List.append_eq_nil_iff.1 ((inv_reachable (hd.reachable h.reachable)).info.off hn)).1

/-- `EnableInfo` is never looked at. -/
theorem C118_ignored (d t : Bool) (s : State ε) (a : Act ε) : step ⟨d, true, t⟩ s a = step ⟨d, false, t⟩ s a := by
  cases a <;> rfl

/-! ### The end -/

/-- Any steps. -/
inductive Later (cfg : Cfg) (s : State ε) : State ε → Prop
  | refl : Later cfg s s
  | step {s1 s2} (a : Act ε) : Later cfg s s1 → step cfg s1 a = .ok s2 → Later cfg s s2

theorem Later.reachable {cfg : Cfg} {s s' : State ε} (h : Later cfg s s') (hr : Reachable cfg s) : Reachable cfg s' := by
  induction h with
  | refl => exact hr
  | step a _ hs ih => exact .step a ih hs

/-- Only logging into an open channel changes what the user will get. -/
theorem content_step {cfg : Cfg} {s s' : State ε} {a : Act ε} (hs : step cfg s a = .ok s') (hc : s.info.closed = true ∨ a = .cleanup) :
    s'.infoGot ++ s'.info.buf = s.infoGot ++ s.info.buf := by
  cases a with
  | info e =>
    have hc : s.info.closed = true := by simpa using hc
    simp only [step, infof_eq, Outcome.ok.injEq] at hs
    subst hs
    simp [hc]
  | debug e => simp only [step, debugf_eq, Outcome.ok.injEq] at hs; subst hs; rfl
  | cleanup =>
    simp only [step, close] at hs
    cases hr : s.reader <;> rw [hr] at hs
    · cases hd : s.debug.closed <;> rw [hd] at hs <;> cases hs
      rfl
    · cases hd : s.info.closed <;> rw [hd] at hs <;> cases hs
      rfl
    · cases hs
  | recvInfo =>
    simp only [step, recv] at hs
    cases hb : s.info.buf with
    | nil => rw [hb] at hs; cases hcl : s.info.closed <;> rw [hcl] at hs <;> cases hs; rw [hb]
    | cons e b => rw [hb] at hs; cases hs; simp
  | recvDebug => simp only [step] at hs; (repeat' split at hs) <;> cases hs <;> rfl

theorem closed_step {cfg : Cfg} {s s' : State ε} {a : Act ε} (hr : Reachable cfg s) (hs : step cfg s a = .ok s')
    (hc : s.info.closed = true) : s'.info.closed = true := by
  have h1 := (inv_reachable hr).infoClosed.1 hc
  have h2 := (inv_reachable (.step a hr hs)).infoClosed
  rw [h2]
  cases a <;> simp only [step] at hs <;> (repeat' split at hs) <;> cases hs <;> simp_all

theorem content_later {cfg : Cfg} {s s' : State ε} (h : Later cfg s s') (hr : Reachable cfg s) (hc : s.info.closed = true) :
    s'.info.closed = true ∧ s'.infoGot ++ s'.info.buf = s.infoGot ++ s.info.buf := by
  induction h with
  | refl => exact ⟨hc, rfl⟩
  | step a hl hs ih => exact ⟨closed_step (hl.reachable hr) hs ih.1, by rw [content_step hs (.inl ih.1), ih.2]⟩

/-- C118, the end of the session: a user who kept up until the reader closed the INFO channel and is later told that
there are no more messages has received all that was logged before (with both options set). -/
theorem C118_rest {cfg : Cfg} {s s1 s2 : State ε} (h : KeepsUp cfg s) (hon : cfg.enableDebug = true) (hc : s.info.closed = false)
    (hs : step cfg s .cleanup = .ok s1) (hc1 : s1.info.closed = true) (hl : Later cfg s1 s2) (he : s2.infoEnd = true) :
    s2.infoGot = s.infoLogged := by
  have hr1 : Reachable cfg s1 := .step _ h.reachable hs
  have h1 := (content_later hl hr1 hc1).2
  rw [content_step hs (.inr rfl), (keeps_all h hon).1 hc, ((inv_reachable (hl.reachable hr1)).info.told he).2, List.append_nil] at h1
  exact h1

def onlyInfo : Cfg := ⟨false, true, false⟩
def onlyDebug : Cfg := ⟨true, false, false⟩
def oneInfo : State Nat := { State.init with infoLogged := [7] }
def oneInfo' : State Nat := { State.init with infoLogged := [7], info := ⟨[7], false⟩ }

theorem oneInfo_keeps : KeepsUp onlyInfo oneInfo := .step (.info 7) .init rfl (by decide) (by decide)
theorem oneInfo'_keeps : KeepsUp onlyDebug oneInfo' := .step (.info 7) .init (by decide) (by decide) (by decide)

/-- Negation of C118: a session with `EnableInfo` says nothing, and one with `EnableDebug` only sends INFO messages. -/
theorem C118_violated : (KeepsUp onlyInfo oneInfo ∧ ¬ InfoAsDocumented onlyInfo oneInfo) ∧
    (KeepsUp onlyDebug oneInfo' ∧ ¬ InfoAsDocumented onlyDebug oneInfo') := by
  refine ⟨⟨oneInfo_keeps, fun h => ?_⟩, ⟨oneInfo'_keeps, fun h => ?_⟩⟩
  · obtain ⟨s', h1, h2⟩ := h.1 rfl rfl
    have := (List.append_eq_nil_iff.1 ((inv_reachable (h1.reachable oneInfo_keeps.reachable)).info.off (by decide))).1
    rw [h2] at this
    exact absurd this (by decide)
  · obtain ⟨s', h1, h2, -⟩ := drain_info onlyDebug [7] oneInfo' rfl
    have := (h.2 rfl).2 s' h1
    rw [h2] at this
    exact absurd this (by decide)

example : ∃ s : State Nat, KeepsUp ⟨true, true, true⟩ s ∧ s.infoLogged = [7] ∧ s.debugLogged = [8] ∧ s.info.closed = false :=
  ⟨_, .step (.debug 8) (.step (.info 7) .init (by rfl) (by decide) (by decide)) (by rfl) (by decide) (by decide), rfl, rfl, rfl⟩

/-! ### C119 -/

/-- C119: logging never blocks and never panics, in no state whatsoever, also if nobody receives and after the end. -/
theorem C119_total (cfg : Cfg) (s : State ε) (e : ε) :
    (∃ s', step cfg s (.info e) = .ok s') ∧ (∃ s', step cfg s (.debug e) = .ok s') := by
  simp only [step, infof_eq, debugf_eq]
  exact ⟨⟨_, rfl⟩, ⟨_, rfl⟩⟩

/-- C119: no step panics (the channels are closed only once), and the end of the reader does not wait for the user. -/
theorem C119_no_panic {cfg : Cfg} {s : State ε} (hr : Reachable cfg s) :
    (∀ a, step cfg s a ≠ .panic) ∧ (s.reader ≠ .over → ∃ s', step cfg s .cleanup = .ok s') := by
  have h := inv_reachable hr
  have h3 := h.infoClosed
  have h4 := h.debugClosed
  have hclean : s.reader ≠ .over → ∃ s', step cfg s .cleanup = .ok s' := by
    intro hn
    simp only [step, close]
    cases hrd : s.reader with
    | running =>
      have hd : s.debug.closed = false := by rw [hrd] at h4; simpa using h4
      rw [hd]; exact ⟨_, rfl⟩
    | debugClosed =>
      have hd : s.info.closed = false := by rw [hrd] at h3; simpa using h3
      rw [hd]; exact ⟨_, rfl⟩
    | over => exact absurd hrd hn
  refine ⟨fun a => ?_, hclean⟩
  cases a with
  | info e => obtain ⟨s', h1⟩ := (C119_total cfg s e).1; rw [h1]; simp
  | debug e => obtain ⟨s', h1⟩ := (C119_total cfg s e).2; rw [h1]; simp
  | cleanup =>
    by_cases hn : s.reader = .over
    · simp only [step, hn]; simp
    · obtain ⟨s', h1⟩ := hclean hn; rw [h1]; simp
  | recvInfo => simp only [step, recv]; cases s.info.buf <;> cases s.info.closed <;> simp
  | recvDebug => simp only [step, recv]; cases s.debug.buf <;> cases s.debug.closed <;> simp

/-- C119: the user gets entries that were logged, in the order in which they were logged, none twice; at most 1024 wait. -/
theorem C119_order {cfg : Cfg} {s : State ε} (hr : Reachable cfg s) :
    s.infoGot.Sublist s.infoLogged ∧ s.debugGot.Sublist s.debugLogged ∧ s.info.buf.length ≤ 1024 ∧ s.debug.buf.length ≤ 1024 :=
  ⟨(List.sublist_append_left _ _).trans (inv_reachable hr).info.sub,
   (List.sublist_append_left _ _).trans (inv_reachable hr).debug.sub, (inv_reachable hr).info.len, (inv_reachable hr).debug.len⟩

/-- C119: a user who is told that there are no more entries has received everything that was put into the channel, and
later messages change nothing for them. -/
theorem C119_end {cfg : Cfg} {s s' : State ε} {a : Act ε} (hr : Reachable cfg s) (hs : step cfg s a = .ok s') :
    (s.infoEnd = true → s.info.buf = [] ∧ s.reader = .over ∧ s'.infoGot = s.infoGot) ∧
    (s.debugEnd = true → s.debug.buf = [] ∧ s.reader ≠ .running ∧ s'.debugGot = s.debugGot) := by
  have h := inv_reachable hr
  refine ⟨fun he => ?_, fun he => ?_⟩
  · obtain ⟨h1, h2⟩ := h.info.told he
    refine ⟨h2, h.infoClosed.1 h1, ?_⟩
    cases a with
    | recvInfo => simp only [step, recv, h2, h1, if_true, Outcome.ok.injEq] at hs; subst hs; rfl
    | info e => simp only [step, infof_eq, Outcome.ok.injEq] at hs; subst hs; rfl
    | debug e => simp only [step, debugf_eq, Outcome.ok.injEq] at hs; subst hs; rfl
    | cleanup => simp only [step] at hs; (repeat' split at hs) <;> cases hs <;> rfl
    | recvDebug => simp only [step] at hs; (repeat' split at hs) <;> cases hs <;> rfl
  · obtain ⟨h1, h2⟩ := h.debug.told he
    refine ⟨h2, h.debugClosed.1 h1, ?_⟩
    cases a with
    | recvDebug => simp only [step, recv, h2, h1, if_true, Outcome.ok.injEq] at hs; subst hs; rfl
    | info e => simp only [step, infof_eq, Outcome.ok.injEq] at hs; subst hs; rfl
    | debug e => simp only [step, debugf_eq, Outcome.ok.injEq] at hs; subst hs; rfl
    | cleanup => simp only [step] at hs; (repeat' split at hs) <;> cases hs <;> rfl
    | recvInfo => simp only [step] at hs; (repeat' split at hs) <;> cases hs <;> rfl

/-- C119: after the end of the reader the user is told, as soon as they have received the rest. -/
theorem C119_told {cfg : Cfg} {s : State ε} (hr : Reachable cfg s) (ho : s.reader = .over) :
    (s.info.buf = [] → step cfg s .recvInfo = .ok { s with infoEnd := true }) ∧
    (s.debug.buf = [] → step cfg s .recvDebug = .ok { s with debugEnd := true }) := by
  have h := inv_reachable hr
  have h1 := h.infoClosed.2 ho
  have h2 := h.debugClosed.2 (by rw [ho]; simp)
  exact ⟨fun hb => by simp [step, recv, hb, h1], fun hb => by simp [step, recv, hb, h2]⟩

/-- Closed, a message is logged after that, and the user gets the one before and the end. -/
def ended : State Nat := ⟨⟨[], true⟩, ⟨[], true⟩, .over, [7, 9], [], [7], [], true, false⟩

example : Reachable ⟨true, true, false⟩ ended := by
  refine .step (s := ⟨⟨[], true⟩, ⟨[], true⟩, .over, [7, 9], [], [7], [], false, false⟩) .recvInfo ?_ (by decide)
  refine .step (s := ⟨⟨[7], true⟩, ⟨[], true⟩, .over, [7, 9], [], [], [], false, false⟩) .recvInfo ?_ (by decide)
  refine .step (s := ⟨⟨[7], true⟩, ⟨[], true⟩, .over, [7], [], [], [], false, false⟩) (.info 9) ?_ (by decide)
  refine .step (s := ⟨⟨[7], false⟩, ⟨[], true⟩, .debugClosed, [7], [], [], [], false, false⟩) .cleanup ?_ (by decide)
  refine .step (s := ⟨⟨[7], false⟩, ⟨[], false⟩, .running, [7], [], [], [], false, false⟩) .cleanup ?_ (by decide)
  exact .step (.info 7) .init (by decide)

def beforeEnd : State Nat := ⟨⟨[7], false⟩, ⟨[], true⟩, .debugClosed, [7], [], [], [], false, false⟩
def afterEnd : State Nat := ⟨⟨[7], true⟩, ⟨[], true⟩, .over, [7], [], [], [], false, false⟩

/-- `C118_rest` can be used. -/
example : KeepsUp ⟨true, true, false⟩ beforeEnd ∧ step ⟨true, true, false⟩ beforeEnd .cleanup = .ok afterEnd ∧
    Later ⟨true, true, false⟩ afterEnd ended := by
  refine ⟨.step (s := ⟨⟨[7], false⟩, ⟨[], false⟩, .running, [7], [], [], [], false, false⟩) .cleanup
    (.step (.info 7) .init (by decide) (by decide) (by decide)) (by decide) (by decide) (by decide), by decide, ?_⟩
  refine .step (s1 := ⟨⟨[], true⟩, ⟨[], true⟩, .over, [7, 9], [], [7], [], false, false⟩) .recvInfo ?_ (by decide)
  refine .step (s1 := ⟨⟨[7], true⟩, ⟨[], true⟩, .over, [7, 9], [], [], [], false, false⟩) .recvInfo ?_ (by decide)
  exact .step (.info 9) .refl (by decide)

/-- A second `close`, or a send that is not recovered, would be seen as a panic. -/
example : close (⟨[7], true⟩ : Chan Nat) = .panic ∧ trySend (⟨[], true⟩ : Chan Nat) 7 = .panic ∧
    close (⟨[7], false⟩ : Chan Nat) = .ok ⟨[7], true⟩ := ⟨rfl, rfl, rfl⟩

#print axioms C118_rest
#print axioms C118_debug
#print axioms C118_partial
#print axioms C118_ignored
#print axioms C118_violated
#print axioms C119_total
#print axioms C119_no_panic
#print axioms C119_order
#print axioms C119_end
#print axioms C119_told

end Verif.Output
