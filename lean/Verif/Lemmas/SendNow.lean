import Verif.Lemmas.DelayedBatch
/-!
# Order of send IDs
-/
namespace Verif.DelayedSend

/-- Order of the send IDs in a flush. -/
def FlushIDs (s : State) : Flush → Prop
  | .acquired n => (s.infos s.cur).sendID < (s.infos n).sendID
  | .swapped x _ => (s.infos x).sendID < (s.infos s.cur).sendID
  | .checked x _ => (s.infos x).sendID < (s.infos s.cur).sendID
  | .wrote x _ _ => (s.infos x).sendID < (s.infos s.cur).sendID
  | .ended x _ => (s.infos x).sendID < (s.infos s.cur).sendID

/-- As long as nobody has called `Close`, the current `SendInfo` is newer than all that were sent. -/
structure IDs (s : State) : Prop where
  le : ∀ x, (s.infos x).sendID ≤ s.ids
  last : s.closer = .none → s.last < (s.infos s.cur).sendID
  flush : s.closer = .none → ∀ f ∈ s.main.flush?, FlushIDs s f

theorem ids_init : IDs State.init := by
  refine ⟨fun x => ?_, fun _ => ?_, fun _ f hf => ?_⟩
  · by_cases e : x = 0
    · subst e; simp [State.init]
    · simp [State.init, setInfo_other e]
  · simp [State.init]
  · simp [State.init, Main.flush?] at hf

theorem flushIDs_congr {s s' : State} {f : Flush} (hc : s'.cur = s.cur)
    (hi : ∀ x ∈ s.cur :: f.held, (s'.infos x).sendID = (s.infos x).sendID) (h : FlushIDs s f) : FlushIDs s' f := by
  have h1 := hi s.cur (by simp)
  cases f <;> simp only [FlushIDs, hc] at * <;> (rw [h1, hi _ (by simp [Flush.held])]; exact h)

/-- Nothing about send IDs changes for what is in use. -/
theorem IDs.frame {s s' : State} (h : IDs s) (hle : ∀ x, (s'.infos x).sendID ≤ s'.ids)
    (hi : ∀ x ∈ s.cur :: s.main.flush?.flatMap Flush.held, (s'.infos x).sendID = (s.infos x).sendID)
    (hc : s'.cur = s.cur) (hm : s'.main.flush? = s.main.flush?) (hl : s'.last = s.last)
    (hcl : s'.closer = .none → s.closer = .none) : IDs s' := by
  refine ⟨hle, fun hn => ?_, fun hn f hf => ?_⟩
  · rw [hl, hc, hi _ (by simp)]; exact h.last (hcl hn)
  · rw [hm] at hf
    refine flushIDs_congr hc (fun x hx => hi x ?_) (h.flush (hcl hn) f hf)
    rcases List.mem_cons.1 hx with hx | hx
    · simp [hx]
    · exact List.mem_cons_of_mem _ (List.mem_flatMap.2 ⟨f, hf, hx⟩)

theorem main_flush_firm (s : State) : ∀ x ∈ s.cur :: s.main.flush?.flatMap Flush.held, x ∈ firm s := by
  intro x hx
  rcases List.mem_cons.1 hx with hx | hx
  · simp [firm, hx]
  · cases hm : s.main <;> simp [hm, Main.flush?, firm, Main.firm] at hx ⊢ <;> simp [hx]

/-- The IDs do not change at all. -/
theorem IDs.same {s s' : State} (h : IDs s) (hi : ∀ x, (s'.infos x).sendID = (s.infos x).sendID) (hd : s'.ids = s.ids)
    (hc : s'.cur = s.cur) (hm : s'.main.flush? = s.main.flush?) (hl : s'.last = s.last)
    (hcl : s'.closer = .none → s.closer = .none) : IDs s' :=
  h.frame (fun x => by rw [hi, hd]; exact h.le x) (fun x _ => hi x) hc hm hl hcl

theorem acquire_ids {s s1 : State} {r n} (ha : acquire s r = .ok (s1, n)) : s1.ids = s.ids + 1 := by
  unfold acquire at ha
  cases r with
  | none => simp only [Outcome.ok.injEq, Prod.mk.injEq] at ha; obtain ⟨rfl, rfl⟩ := ha; rfl
  | some k =>
    simp only at ha
    split at ha
    · split at ha
      · cases ha
      · simp only [Outcome.ok.injEq, Prod.mk.injEq] at ha; obtain ⟨rfl, rfl⟩ := ha; rfl
    · cases ha

/-- Everything the IDs are about is in use. -/
def Used (s : State) (F : List Nat) : Prop := ∀ x ∈ s.cur :: s.main.flush?.flatMap Flush.held, x ∈ F

/-- What an acquisition does to the IDs. -/
theorem acquire_frame {s s1 : State} {r n} {H F : List Nat} (h : IDs s) (hr : RefOK s.infos s.next s.pool H F) (hf : Used s F)
    (ha : acquire s r = .ok (s1, n)) :
    (∀ x, (s1.infos x).sendID ≤ s1.ids) ∧ (∀ x ∈ F, (s1.infos x).sendID = (s.infos x).sendID) ∧
    (s1.infos n).sendID = s.ids + 1 ∧ n ∉ F ∧ IDs s1 ∧
    s1 = { s with infos := s1.infos, next := s1.next, pool := s1.pool, ids := s1.ids } := by
  obtain ⟨hA, -⟩ := acquire_ok hr ha
  have hn : n ∉ F := fun hn => by have := hr.firm n hn; rw [hA.free] at this; cases this
  have hid := acquire_ids ha
  have hinfo : (s1.infos n).sendID = s.ids + 1 := by rw [hA.info]
  have hle : ∀ x, (s1.infos x).sendID ≤ s1.ids := by
    intro x
    by_cases e : x = n
    · rw [e, hinfo, hid]; exact Nat.le_refl _
    · rw [hA.other x e, hid]; have := h.le x; omega
  have hsame : ∀ x ∈ F, (s1.infos x).sendID = (s.infos x).sendID := by
    intro x hx
    rw [hA.other x (fun e => hn (e ▸ hx))]
  refine ⟨hle, hsame, hinfo, hn, ?_, hA.eq⟩
  have hE := hA.eq
  exact h.frame hle (fun x hx => hsame x (hf x hx)) (by rw [hE]) (by rw [hE]) (by rw [hE]) (by rw [hE]; exact id)

theorem acquireError_frame {s s1 : State} {r n} {H F : List Nat} (h : IDs s) (hr : RefOK s.infos s.next s.pool H F) (hf : Used s F)
    (ha : acquireError s r = .ok (s1, n)) : IDs s1 := by
  unfold acquireError at ha
  split at ha
  · rename_i s2 n2 h2
    cases ha
    have h3 := (acquire_frame h hr hf h2).2.2.2.2.1
    refine h3.same (fun x => ?_) rfl rfl rfl rfl id
    by_cases e : x = n
    · subst e; simp
    · simp [setInfo_other e]
  · rename_i hx; exact absurd ha (hx _ _)

theorem giveUp_ids {s s' : State} {i m r} {H F : List Nat} (h : IDs s) (hr : RefOK s.infos s.next s.pool H F) (hf : Used s F)
    (hs : giveUp s i m r = .ok s') : IDs s' := by
  unfold giveUp at hs
  split at hs <;> cases hs
  rename_i s1 n h1
  exact (acquireError_frame h hr hf h1).same (fun _ => rfl) rfl rfl rfl rfl id

theorem release_frame {s s' : State} {x : Nat} (hs : release s x = .ok s') :
    (∀ y, (s'.infos y).sendID = (s.infos y).sendID) ∧ s' = { s with infos := s'.infos, pool := s'.pool } := by
  unfold release at hs
  simp only at hs
  (repeat' split at hs) <;> cases hs <;> refine ⟨fun y => ?_, rfl⟩ <;> by_cases e : y = x <;>
    first | (subst e; simp) | simp [setInfo_other e]

theorem setInfo_id (s : State) (x : Nat) (v : Info) (hv : v.sendID = (s.infos x).sendID) (y : Nat) :
    (setInfo s.infos x v y).sendID = (s.infos y).sendID := by
  by_cases e : y = x
  · subst e; simpa using hv
  · rw [setInfo_other e]

theorem incRef_same {s : State} (h : IDs s) (x : Nat) : IDs (incRef s x) :=
  h.same (setInfo_id s x _ rfl) rfl rfl rfl rfl id

theorem tryAppend_ids {cfg : Cfg} {s s' : State} {m r} (h : IDs s) (hr : RInv s) (hs : tryAppend cfg s m r = .ok s') : IDs s' := by
  unfold tryAppend at hs
  split at hs
  · cases hs
  · split at hs
    · split at hs
      · split at hs <;> cases hs
        rename_i s1 n h1
        exact (acquireError_frame h hr.ref (main_flush_firm s) h1).same (fun _ => rfl) rfl rfl rfl rfl id
      · cases hs; exact h.same (fun _ => rfl) rfl rfl rfl rfl id
    · dsimp only at hs
      split at hs
      · cases hs
      · cases hs
        exact h.same (setInfo_id s _ _ rfl) rfl rfl rfl rfl id

/-- One step of a flush does not change the IDs; only the swap changes the current one. -/
theorem flushStep_same {s s' : State} {f : Flush} {a : FAct} {r : FRes} (hs : flushStep s f a = .ok (s', r)) :
    (∀ y, (s'.infos y).sendID = (s.infos y).sendID) ∧ s'.ids = s.ids ∧ s'.closer = s.closer ∧ s'.main = s.main ∧ s'.last = s.last ∧
    ((∃ n, f = .acquired n ∧ s'.cur = n ∧ ∃ msgs, r = .running (.swapped s.cur msgs)) ∨
     (s'.cur = s.cur ∧ (∀ n, f ≠ .acquired n) ∧ ((∃ g, r = .running g ∧ (∀ n, g ≠ .acquired n) ∧ g.held = f.held) ∨
       ∃ x msgs e, f = .ended x msgs ∧ r = .over e (s.infos x).sendID))) := by
  have hres : ∀ x ok y, ((setResult s x ok).infos y).sendID = (s.infos y).sendID := by
    intro x ok y; exact setInfo_id s x { s.infos x with err := !ok } rfl y
  cases f <;> cases a <;> simp only [flushStep] at hs <;> try (cases hs; done)
  · cases hs
    refine ⟨setInfo_id s _ _ rfl, rfl, rfl, rfl, rfl, .inl ⟨_, rfl, rfl, _, rfl⟩⟩
  · split at hs <;> cases hs
    exact ⟨hres _ _, rfl, rfl, rfl, rfl, .inr ⟨rfl, by simp, .inl ⟨_, rfl, by simp, rfl⟩⟩⟩
  · split at hs
    · cases hs
    · split at hs <;> cases hs
      · exact ⟨hres _ _, rfl, rfl, rfl, rfl, .inr ⟨rfl, by simp, .inl ⟨_, rfl, by simp, rfl⟩⟩⟩
      · exact ⟨fun _ => rfl, rfl, rfl, rfl, rfl, .inr ⟨rfl, by simp, .inl ⟨_, rfl, by simp, rfl⟩⟩⟩
  · split at hs
    · cases hs
    · split at hs <;> cases hs
      exact ⟨setInfo_id s _ _ rfl, rfl, rfl, rfl, rfl, .inr ⟨rfl, by simp, .inl ⟨_, rfl, by simp, rfl⟩⟩⟩
  · cases hs
    exact ⟨hres _ _, rfl, rfl, rfl, rfl, .inr ⟨rfl, by simp, .inl ⟨_, rfl, by simp, rfl⟩⟩⟩
  · split at hs <;> cases hs
    exact ⟨setInfo_id s _ _ rfl, rfl, rfl, rfl, rfl, .inr ⟨rfl, by simp, .inl ⟨_, rfl, by simp, rfl⟩⟩⟩
  · split at hs <;> cases hs
    rename_i h1
    obtain ⟨h2, h3⟩ := release_frame h1
    exact ⟨h2, by rw [h3], by rw [h3], by rw [h3], by rw [h3], .inr ⟨by rw [h3], by simp, .inr ⟨_, _, _, rfl, rfl⟩⟩⟩

theorem flushIDs_held {s : State} {f g : Flush} (hf : ∀ n, f ≠ .acquired n) (hg : ∀ n, g ≠ .acquired n) (he : g.held = f.held)
    (h : FlushIDs s f) : FlushIDs s g := by
  cases f <;> cases g <;> simp_all [Flush.held, FlushIDs]

theorem begin_main {s s' : State} {r : Option Nat} {m : Nat → Main} (h : IDs s) (hr : RInv s)
    (hm : ∀ n, (m n).flush? = [.acquired n]) (hs : begin s r (fun s n => { s with main := m n }) = .ok s') : IDs s' := by
  unfold begin at hs
  split at hs <;> cases hs
  rename_i s1 n h1
  obtain ⟨h2, h3, h4, h5, h6, h7⟩ := acquire_frame h hr.ref (main_flush_firm s) h1
  refine ⟨h2, h6.last, fun hn g hg => ?_⟩
  dsimp only at hn hg
  rw [hm, List.mem_singleton] at hg
  subst hg
  show (s1.infos s1.cur).sendID < (s1.infos n).sendID
  have hc : s1.cur = s.cur := by rw [h7]
  rw [hc, h4, h3 s.cur (by simp [firm])]
  have := h.le s.cur
  omega

theorem rinv_used {s : State} : Used s (firm s) := main_flush_firm s

/-- One step of the flush of the main thread. -/
theorem flush_main {s s' : State} {f g : Flush} {a : FAct} {m : Main} (h : IDs s) (hm : f ∈ s.main.flush?) (hm' : m.flush? = [g])
    (hs : flushStep s f a = .ok (s', .running g)) : IDs { s' with main := m } := by
  obtain ⟨h1, h2, h3, h4, h5, h6⟩ := flushStep_same hs
  refine ⟨fun x => by show (s'.infos x).sendID ≤ s'.ids; rw [h1, h2]; exact h.le x, fun hn => ?_, fun hn f' hf' => ?_⟩
  · replace hn : s.closer = .none := by rw [← h3]; exact hn
    show s'.last < (s'.infos s'.cur).sendID
    rw [h1, h5]
    have h7 := h.last hn
    have h8 := h.flush hn f hm
    rcases h6 with ⟨n, rfl, h6, -⟩ | ⟨h6, -⟩
    · rw [h6]; exact Nat.lt_trans h7 h8
    · rw [h6]; exact h7
  · replace hn : s.closer = .none := by rw [← h3]; exact hn
    have h8 := h.flush hn f hm
    dsimp only at hf'
    rw [hm', List.mem_singleton] at hf'
    subst hf'
    rcases h6 with ⟨n, rfl, h6, msgs, h7⟩ | ⟨h6, hna, ⟨g', h7, h9, h10⟩ | ⟨x, msgs, e, -, h7⟩⟩
    · cases h7
      show (s'.infos s.cur).sendID < (s'.infos s'.cur).sendID
      rw [h1, h1, h6]; exact h8
    · cases h7
      refine flushIDs_congr (s := s) h6 (fun x _ => h1 x) (flushIDs_held hna h9 h10 h8)
    · cases h7

/-- The flush of the main thread ends. -/
theorem over_main {s s' : State} {f : Flush} {a : FAct} {m : Main} {e : Bool} {id last : Nat} (h : IDs s) (hm : f ∈ s.main.flush?)
    (hm' : m.flush? = []) (hl : last = s.last ∨ last = id) (hs : flushStep s f a = .ok (s', .over e id)) :
    IDs { s' with main := m, last := last } := by
  obtain ⟨h1, h2, h3, h4, h5, h6⟩ := flushStep_same hs
  refine ⟨fun x => by show (s'.infos x).sendID ≤ s'.ids; rw [h1, h2]; exact h.le x, fun hn => ?_, fun hn f' hf' => ?_⟩
  · replace hn : s.closer = .none := by rw [← h3]; exact hn
    show last < (s'.infos s'.cur).sendID
    have h7 := h.last hn
    have h8 := h.flush hn f hm
    rcases h6 with ⟨n, rfl, h6, msgs, h9⟩ | ⟨h6, hna, ⟨g', h9, -, -⟩ | ⟨x, msgs, e, rfl, h9⟩⟩
    · cases h9
    · cases h9
    · cases h9
      rw [h1, h6]
      rcases hl with rfl | rfl
      · exact h7
      · exact h8
  · dsimp only at hf'; rw [hm'] at hf'; cases hf'

theorem ids_step {cfg : Cfg} {s s' : State} {a : Act} (h : IDs s) (hr : RInv s) (hs : step cfg s a = .ok s') : IDs s' := by
  have ctl : ∀ {t : State}, IDs t → ∀ {t' : State}, t'.infos = t.infos → t'.ids = t.ids → t'.cur = t.cur →
      t'.main.flush? = t.main.flush? → t'.last = t.last → (t'.closer = .none → t.closer = .none) → IDs t' :=
    fun ht _ hi hd hc hm hl hcl => ht.same (fun x => by rw [hi]) hd hc hm hl hcl
  cases a with
  | write m r => exact tryAppend_ids h hr hs
  | retry i r =>
    simp only [step] at hs
    split at hs
    · have h1 : IDs { s with writers := s.writers.eraseIdx i } := ctl h rfl rfl rfl rfl rfl id
      exact tryAppend_ids h1 (rinv_retryState hr i) hs
    · cases hs
  | refused r =>
    simp only [step] at hs
    split at hs
    · split at hs <;> cases hs
      rename_i s1 n h1
      exact ctl (acquireError_frame h hr.ref rinv_used h1) rfl rfl rfl rfl rfl id
    · cases hs
  | inc i r =>
    simp only [step] at hs
    split at hs
    · rename_i x m hi
      have hx : x < s.next := writers_knows hr hi x (by simp [Writer.knows])
      split at hs
      · exact giveUp_ids (incRef_same h x) (hr.ref.leak hx) (main_flush_firm s) hs
      · cases hs; exact ctl (incRef_same h x) rfl rfl rfl rfl rfl id
    · rename_i x m hi
      split at hs <;> cases hs <;> exact ctl (incRef_same h x) rfl rfl rfl rfl rfl id
    · cases hs
  | poke i handoff r =>
    simp only [step] at hs
    split at hs
    · rename_i x m first hi
      split at hs
      · split at hs
        · exact giveUp_ids h hr.ref rinv_used hs
        · cases hs; exact ctl h rfl rfl rfl rfl rfl id
      · split at hs
        · split at hs
          · rename_i hidle
            have hg : IDs { s with main := .got x } := ctl h rfl rfl rfl (by rw [hidle]; rfl) rfl id
            split at hs
            · refine giveUp_ids hg hr.ref (fun y hy => ?_) hs
              exact main_flush_firm s y (by rw [hidle]; exact hy)
            · cases hs; exact ctl hg rfl rfl rfl rfl rfl id
          · cases hs
        · split at hs
          · exact giveUp_ids h hr.ref rinv_used hs
          · cases hs; exact ctl h rfl rfl rfl rfl rfl id
    · cases hs
  | wake i =>
    simp only [step] at hs
    (repeat' split at hs) <;> cases hs
    exact ctl h rfl rfl rfl rfl rfl id
  | tick i =>
    simp only [step] at hs
    (repeat' split at hs) <;> cases hs
    exact ctl h rfl rfl rfl rfl rfl id
  | sendNow i =>
    simp only [step] at hs
    (repeat' split at hs) <;> cases hs
    exact ctl (incRef_same h _) rfl rfl rfl rfl rfl id
  | sendNowChan i =>
    simp only [step] at hs
    (repeat' split at hs) <;> cases hs
    rename_i hidle
    exact ctl h rfl rfl rfl (by rw [hidle]; rfl) rfl id
  | userRelease i =>
    simp only [step] at hs
    split at hs
    · split at hs
      · cases hs
      split at hs
      · obtain ⟨h1, h2⟩ := release_frame hs
        exact h.same h1 (by rw [h2]) (by rw [h2]) (by rw [h2]) (by rw [h2]) (by rw [h2]; exact id)
      · cases hs
    · cases hs
  | connect r =>
    simp only [step] at hs
    split at hs
    · exact begin_main h hr (fun _ => rfl) hs
    · cases hs
  | timer r =>
    simp only [step] at hs
    split at hs
    · exact begin_main h hr (fun _ => rfl) hs
    · cases hs
  | handle r =>
    simp only [step] at hs
    split at hs
    · rename_i x hm
      split at hs
      · cases hs; exact ctl h rfl rfl rfl (by rw [hm]; rfl) rfl id
      · exact begin_main h hr (fun _ => rfl) hs
    · cases hs
  | mainFlush a r =>
    simp only [step] at hs
    split at hs
    · rename_i f hm
      split at hs <;> try (cases hs; done)
      · rename_i s1 f1 hf
        cases hs
        exact flush_main h (by simp [hm, Main.flush?]) rfl hf
      · rename_i s1 id hf
        cases hs
        exact over_main (m := .idle) (last := s1.last) h (by simp [hm, Main.flush?]) rfl
          (.inl (flushStep_same hf).2.2.2.2.1) hf
      · rename_i s1 id hf
        have h0 := over_main (m := .idle) (last := s1.last) h (by simp [hm, Main.flush?]) rfl
          (.inl (flushStep_same hf).2.2.2.2.1) hf
        exact begin_main h0 (rinv_overMain hr hm hf) (fun _ => rfl) hs
    · rename_i d f hm
      split at hs <;> try (cases hs; done)
      · rename_i s1 f1 hf
        cases hs
        exact flush_main h (by simp [hm, Main.flush?]) rfl hf
      · rename_i s1 em id hf
        cases hs
        exact over_main (m := Main.after d) (last := id) h (by simp [hm, Main.flush?]) (by cases d <;> rfl) (.inr rfl) hf
    · cases hs
  | mainRelease =>
    simp only [step] at hs
    split at hs
    · rename_i x hm
      obtain ⟨h1, h2⟩ := release_frame hs
      exact h.same h1 (by rw [h2]) (by rw [h2]) (by rw [h2, hm]; rfl) (by rw [h2]) (by rw [h2]; exact id)
    · cases hs
  | mainExit =>
    simp only [step] at hs
    split at hs <;> cases hs
    rename_i hm
    exact ctl h rfl rfl rfl (by rw [hm.1]; rfl) rfl id
  | close r =>
    simp only [step] at hs
    split at hs
    · cases hs
    · unfold begin at hs
      split at hs <;> cases hs
      rename_i s1 n h1
      have h2 := (acquire_frame (s := { s with done := true }) (ctl h rfl rfl rfl rfl rfl id) hr.ref rinv_used h1).1
      exact ⟨h2, fun hn => (by cases hn), fun hn => (by cases hn)⟩
  | closerFlush a r =>
    simp only [step] at hs
    split at hs
    · rename_i f hm
      split at hs <;> try (cases hs; done)
      · rename_i s1 f1 hf
        cases hs
        obtain ⟨h1, h2, -⟩ := flushStep_same hf
        exact ⟨fun x => by show (s1.infos x).sendID ≤ s1.ids; rw [h1, h2]; exact h.le x, fun hn => (by cases hn), fun hn => (by cases hn)⟩
      · rename_i s1 id hf
        cases hs
        obtain ⟨h1, h2, -⟩ := flushStep_same hf
        exact ⟨fun x => by show (s1.infos x).sendID ≤ s1.ids; rw [h1, h2]; exact h.le x, fun hn => (by cases hn), fun hn => (by cases hn)⟩
      · rename_i s1 id hf
        obtain ⟨h1, h2, -⟩ := flushStep_same hf
        unfold begin at hs
        split at hs <;> cases hs
        rename_i s2 n h3
        have h0 : IDs { s1 with closer := .over } :=
          ⟨fun x => by show (s1.infos x).sendID ≤ s1.ids; rw [h1, h2]; exact h.le x, fun hn => (by cases hn), fun hn => (by cases hn)⟩
        have h4 := (acquire_frame h0 (rinv_overCloser hr hm hf).ref rinv_used h3).1
        exact ⟨h4, fun hn => (by cases hn), fun hn => (by cases hn)⟩
    · cases hs
  | cancel => cases hs; exact ctl h rfl rfl rfl rfl rfl id
  | setDone => cases hs; exact ctl h rfl rfl rfl rfl rfl id
  | fragment r =>
    simp only [step] at hs
    split at hs
    · split at hs <;> cases hs
      rename_i s1 n h1
      exact ctl (acquire_frame h hr.ref rinv_used h1).2.2.2.2.1 rfl rfl rfl rfl rfl id
    · cases hs
  | fragmentDone i er =>
    simp only [step] at hs
    split at hs
    · split at hs <;> cases hs
      exact h.same (setInfo_id s _ _ rfl) rfl rfl rfl rfl id
    · cases hs
  | gc x =>
    simp only [step] at hs
    split at hs <;> cases hs
    exact ctl h rfl rfl rfl rfl rfl id

theorem ids_reachable {cfg : Cfg} {s : State} (hr : Reachable cfg s) : IDs s := by
  induction hr with
  | init => exact ids_init
  | step a hr hs ih => exact ids_step ih (inv_reachable hr).1 hs

end Verif.DelayedSend
