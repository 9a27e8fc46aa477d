import Verif.Model.ReadQueue
/-!
# Invariant of the read queue
-/
namespace Verif.ReadQueue

/-- Items held by the reader goroutine. -/
def Reader.items : Reader → List Nat
  | .sending i => [i]
  | _ => []

/-- Items waiting for delivery, in order. -/
def waiting (s : State) : List Nat := s.queue ++ s.reader.items

/-- All items in use or in the pool. -/
def owned (s : State) : List Nat := s.pool ++ (waiting s ++ s.calls.map (·.item))

/-- Message number of a result. -/
def Ret.seq? : Ret → Option Nat
  | .ok k _ => some k
  | .tooBig k _ _ => some k
  | .closed => none

/-- What a result says about the messages. -/
def Ret.Right (arrived : List Bytes) : Ret → Prop
  | .ok k d => arrived[k]? = some d
  | .tooBig k buf n => ∃ m, arrived[k]? = some m ∧ m.length = n ∧ buf < n
  | .closed => True

structure Inv (s : State) : Prop where
  nodup : (owned s).Nodup
  lt : ∀ i ∈ owned s, i < s.next
  fresh : ∀ i, s.next ≤ i → (s.items i).busy = false
  free : ∀ i ∈ s.pool, (s.items i).busy = false
  busy : ∀ i ∈ waiting s ++ s.calls.map (·.item), (s.items i).busy = true
  content : s.arrived.drop s.taken = (waiting s).map fun i => (s.items i).data
  calls : ∀ c ∈ s.calls, s.arrived[c.seq]? = some (s.items c.item).data ∧
    ∀ d, c.copied = some d → d = (s.items c.item).data
  rets : ∀ r ∈ s.rets, r.Right s.arrived
  seqs : (s.rets.filterMap Ret.seq? ++ s.calls.map (·.seq)).Perm (List.range s.taken)
  len : s.taken ≤ s.arrived.length

theorem inv_init : Inv State.init := by
  constructor <;> simp [State.init, owned, waiting, Reader.items]

theorem right_append (a : List Bytes) (m : Bytes) (r : Ret) (h : r.Right a) : r.Right (a ++ [m]) := by
  have key : ∀ (k : Nat) (d : Bytes), a[k]? = some d → (a ++ [m])[k]? = some d := by
    intro k d hk
    have : k < a.length := by
      rcases Nat.lt_or_ge k a.length with h | h
      · exact h
      · rw [List.getElem?_eq_none h] at hk; cases hk
    rw [List.getElem?_append_left this]; exact hk
  cases r with
  | ok k d => exact key k d h
  | tooBig k b n => obtain ⟨m', h1, h2⟩ := h; exact ⟨m', key k m' h1, h2⟩
  | closed => trivial

/-- Taking a new or pooled item for a message keeps the invariant. -/
theorem inv_acquire (s : State) (p : List Nat) (n i : Nat) (m : Bytes) (h : Inv s) (hr : s.reader = .idle)
    (hn : s.next ≤ n) (hp : ∀ x ∈ p, x ∈ s.pool) (hpd : p.Nodup) (hi : i ∉ p) (hin : i < n)
    (hold : i ∉ waiting s ++ s.calls.map (·.item)) (hb : (s.items i).busy = false) :
    ∃ s', acquire { s with pool := p, next := n } i m = .ok s' ∧ Inv s' := by
  refine ⟨_, by unfold acquire; simp only [hb]; rfl, ?_⟩
  have hw : waiting s = s.queue := by simp [waiting, hr, Reader.items]
  rw [hw] at hold
  have hne : ∀ x ∈ s.queue ++ s.calls.map (·.item), x ≠ i := fun x hx he => hold (he ▸ hx)
  have hset : ∀ x, x ≠ i → setItem s.items i ⟨m, true⟩ x = s.items x := fun x hx => by simp [setItem, hx]
  have hnd := h.nodup
  rw [owned, hw, List.nodup_append] at hnd
  obtain ⟨hn1, hn2, hn3⟩ := hnd
  refine ⟨?_, ?_, ?_, ?_, ?_, ?_, ?_, ?_, h.seqs, ?_⟩
  · simp only [owned, waiting, Reader.items]
    have : (p ++ (s.queue ++ [i] ++ s.calls.map (·.item))).Perm (i :: (p ++ (s.queue ++ s.calls.map (·.item)))) := by
      rw [List.append_assoc]
      exact (List.Perm.append_left p (List.perm_middle)).trans List.perm_middle
    rw [this.nodup_iff, List.nodup_cons, List.nodup_append]
    refine ⟨by simp only [List.mem_append, not_or]; simp only [List.mem_append, not_or] at hold; exact ⟨hi, hold⟩, hpd, hn2, fun a ha b hb => hn3 a (hp a ha) b hb⟩
  · intro x hx
    have hlt := h.lt
    simp only [owned, waiting, hr, Reader.items, List.append_nil, List.mem_append] at hlt
    simp only [owned, waiting, Reader.items, List.mem_append, List.mem_singleton] at hx
    rcases hx with hx | (hx | rfl) | hx
    · have := hlt x (.inl (hp x hx)); simp only; omega
    · have := hlt x (.inr (.inl hx)); simp only; omega
    · exact hin
    · have := hlt x (.inr (.inr hx)); simp only; omega
  · intro x hx
    simp only at hx ⊢
    rw [hset x (by omega)]
    exact h.fresh x (by omega)
  · intro x hx
    simp only at hx ⊢
    rw [hset x (fun he => hi (he ▸ hx))]
    exact h.free x (hp x hx)
  · intro x hx
    simp only [waiting, Reader.items, List.mem_append, List.mem_singleton] at hx
    simp only
    by_cases he : x = i
    · simp [setItem, he]
    · rw [hset x he]
      apply h.busy
      rw [hw]; simp only [List.mem_append]
      rcases hx with (hx | hx) | hx
      · exact .inl hx
      · exact absurd hx he
      · exact .inr hx
  · simp only [waiting, Reader.items, List.map_append, List.map_cons, List.map_nil]
    rw [List.drop_append_of_le_length h.len, h.content, hw]
    congr 1
    · apply List.map_congr_left
      intro x hx; rw [hset x (hne x (by simp [hx]))]
    · simp [setItem]
  · intro c hc
    simp only at hc ⊢
    have hci : c.item ≠ i := hne _ (by simp only [List.mem_append, List.mem_map]; exact .inr ⟨c, hc, rfl⟩)
    rw [hset _ hci]
    exact ⟨right_append s.arrived m (.ok c.seq _) (h.calls c hc).1, (h.calls c hc).2⟩
  · intro r hr'; exact right_append _ _ _ (h.rets r hr')
  · simp only [List.length_append]; have := h.len; omega

theorem getElem_cons_eraseIdx {α} (l : List α) (i : Nat) (hi : i < l.length) :
    (l[i] :: l.eraseIdx i).Perm l := by
  induction l generalizing i with
  | nil => cases hi
  | cons a l ih =>
    cases i with
    | zero => exact List.Perm.refl _
    | succ i =>
      simp only [List.getElem_cons_succ, List.eraseIdx_cons_succ]
      exact (List.Perm.swap _ _ _).trans ((ih i (by simpa using hi)).cons a)

theorem mem_of_get {α} {l : List α} {i : Nat} {c : α} (h : l[i]? = some c) :
    c ∈ l ∧ l.Perm (c :: l.eraseIdx i) ∧ ∃ hi : i < l.length, l[i] = c := by
  have hi : i < l.length := by
    rcases Nat.lt_or_ge i l.length with h' | h'
    · exact h'
    · rw [List.getElem?_eq_none h'] at h; cases h
  rw [List.getElem?_eq_getElem hi] at h
  cases h
  exact ⟨List.getElem_mem hi, (getElem_cons_eraseIdx l i hi).symm, hi, rfl⟩

/-- Every step keeps the invariant and none panics. -/
theorem inv_step (s : State) (a : Act) (h : Inv s) :
    (∃ s', step s a = .ok s' ∧ Inv s') ∨ step s a = .block := by
  have hnd := h.nodup
  rw [owned, List.nodup_append] at hnd
  obtain ⟨hn1, hn2, hn3⟩ := hnd
  cases a with
  | arrive m reuse =>
    simp only [step]
    cases hr : s.reader with
    | sending i => right; cases reuse <;> rfl
    | stopped => right; cases reuse <;> rfl
    | idle =>
      cases reuse with
      | none =>
        left
        refine inv_acquire s s.pool (s.next + 1) s.next m h hr (by omega) (fun _ => id) hn1 ?_ (by omega) ?_ (h.fresh _ (by omega))
        · intro hx; have := h.lt s.next (by simp [owned, hx]); omega
        · intro hx
          have := h.lt s.next (by rw [owned, List.mem_append]; exact .inr hx); omega
      | some i =>
        by_cases hi : i ∈ s.pool
        · left
          simp only [if_pos hi]
          refine inv_acquire s (s.pool.erase i) s.next i m h hr (by omega) (fun x hx => List.mem_of_mem_erase hx)
            (hn1.erase i) ?_ (h.lt i (by simp [owned, hi])) ?_ (h.free i hi)
          · rw [hn1.mem_erase_iff]; simp
          · intro hx; exact hn3 i hi i hx rfl
        · right; simp only [if_neg hi]
  | send =>
    simp only [step]
    cases hr : s.reader with
    | idle => right; rfl
    | stopped => right; rfl
    | sending i =>
      dsimp only
      by_cases hq : s.queue.length < queueLength
      · left
        rw [if_pos hq]
        refine ⟨_, rfl, ?_⟩
        have hw : waiting { s with queue := s.queue ++ [i], reader := .idle } = waiting s := by
          simp [waiting, hr, Reader.items]
        exact ⟨by rw [owned, hw]; exact h.nodup, by rw [owned, hw]; exact h.lt, h.fresh, h.free,
          by rw [hw]; exact h.busy, by rw [hw]; exact h.content, h.calls, h.rets, h.seqs, h.len⟩
      · right; rw [if_neg hq]
  | stop =>
    simp only [step]
    cases hr : s.reader with
    | sending i => right; rfl
    | stopped => right; rfl
    | idle =>
      left
      refine ⟨_, rfl, ?_⟩
      have hw : waiting { s with reader := .stopped } = waiting s := by simp [waiting, hr, Reader.items]
      exact ⟨by rw [owned, hw]; exact h.nodup, by rw [owned, hw]; exact h.lt, h.fresh, h.free,
        by rw [hw]; exact h.busy, by rw [hw]; exact h.content, h.calls, h.rets, h.seqs, h.len⟩
  | take buf =>
    simp only [step]
    cases hq : s.queue with
    | nil =>
      dsimp only
      by_cases hr : s.reader = .stopped
      · left
        rw [if_pos hr]
        refine ⟨_, rfl, ?_⟩
        suffices hh : Inv { s with rets := s.rets ++ [.closed] } by simpa only [hq] using hh
        refine ⟨h.nodup, h.lt, h.fresh, h.free, h.busy, h.content, h.calls, ?_, ?_, h.len⟩
        · intro r hr'
          simp only [List.mem_append, List.mem_singleton] at hr'
          rcases hr' with hr' | rfl
          · exact h.rets r hr'
          · trivial
        · have : [Ret.closed].filterMap Ret.seq? = [] := rfl
          simpa [this] using h.seqs
      · right; rw [if_neg hr]
    | cons i q =>
      left
      refine ⟨_, rfl, ?_⟩
      have hw : waiting s = i :: (q ++ s.reader.items) := by simp [waiting, hq]
      have hc := h.content
      rw [hw, List.map_cons] at hc
      have htk : s.taken < s.arrived.length := by
        rcases Nat.lt_or_ge s.taken s.arrived.length with h' | h'
        · exact h'
        · rw [List.drop_eq_nil_of_le h'] at hc; cases hc
      rw [List.drop_eq_getElem_cons htk] at hc
      injection hc with hc1 hc2
      have hperm : ∀ (l : List Nat), (q ++ s.reader.items ++ (l ++ [i])).Perm (i :: (q ++ s.reader.items) ++ l) := by
        intro l
        rw [← List.append_assoc]
        refine (List.perm_append_comm).trans ?_
        exact List.Perm.refl _
      refine ⟨?_, ?_, h.fresh, h.free, ?_, ?_, ?_, h.rets, ?_, ?_⟩
      · simp only [owned, waiting, List.map_append, List.map_cons, List.map_nil]
        rw [((hperm _).append_left _).nodup_iff]
        have := h.nodup
        rw [owned, hw] at this; exact this
      · intro x hx
        simp only [owned, waiting, List.map_append, List.map_cons, List.map_nil] at hx
        rw [((hperm _).append_left _).mem_iff] at hx
        apply h.lt; rw [owned, hw]; exact hx
      · intro x hx
        simp only [waiting, List.map_append, List.map_cons, List.map_nil] at hx
        rw [(hperm _).mem_iff] at hx
        apply h.busy; rw [hw]; exact hx
      · simp only [waiting]; exact hc2
      · intro c hcm
        simp only [List.mem_append, List.mem_singleton] at hcm
        rcases hcm with hcm | rfl
        · exact h.calls c hcm
        · refine ⟨?_, fun d hd => by cases hd⟩
          simp only
          rw [List.getElem?_eq_getElem htk, hc1]
      · simp only [List.map_append, List.map_cons, List.map_nil]
        rw [List.range_succ, ← List.append_assoc]
        exact h.seqs.append_right _
      · exact htk
  | copy i =>
    simp only [step]
    cases hg : s.calls[i]? with
    | none => right; rfl
    | some c =>
      obtain ⟨hm, hpm, hi, hci⟩ := mem_of_get hg
      dsimp only
      by_cases h1 : c.copied.isSome
      · right; rw [if_pos h1]
      · left
        rw [if_neg h1]
        by_cases h2 : c.buf < (s.items c.item).data.length
        · rw [if_pos h2]
          refine ⟨_, rfl, ?_, ?_, h.fresh, h.free, ?_, h.content, ?_, ?_, ?_, h.len⟩
          · have : (owned s).Perm (c.item :: (owned { s with calls := s.calls.eraseIdx i })) := by
              simp only [owned, waiting]
              refine ((((hpm.map (·.item))).append_left _).append_left _).trans ?_
              rw [List.map_cons]
              exact (List.Perm.append_left _ List.perm_middle).trans List.perm_middle
            have hh := h.nodup
            rw [this.nodup_iff] at hh
            exact (List.nodup_cons.mp hh).2
          · intro x hx
            apply h.lt
            simp only [owned, waiting, List.mem_append, List.mem_map] at hx ⊢
            rcases hx with hx | hx | ⟨y, hy, rfl⟩
            · exact .inl hx
            · exact .inr (.inl hx)
            · exact .inr (.inr ⟨y, List.mem_of_mem_eraseIdx hy, rfl⟩)
          · intro x hx
            apply h.busy
            simp only [waiting, List.mem_append, List.mem_map] at hx ⊢
            rcases hx with hx | ⟨y, hy, rfl⟩
            · exact .inl hx
            · exact .inr ⟨y, List.mem_of_mem_eraseIdx hy, rfl⟩
          · intro y hy; exact h.calls y (List.mem_of_mem_eraseIdx hy)
          · intro r hr
            simp only [List.mem_append, List.mem_singleton] at hr
            rcases hr with hr | rfl
            · exact h.rets r hr
            · exact ⟨_, (h.calls c hm).1, rfl, h2⟩
          · simp only [List.filterMap_append, List.filterMap_cons, Ret.seq?, List.filterMap_nil, List.append_assoc]
            refine List.Perm.trans (List.Perm.append_left _ ?_) h.seqs
            exact ((hpm.map (·.seq))).symm
        · rw [if_neg h2]
          have hmap : ∀ {β} (f : Call → β) (hf : f { c with copied := some (s.items c.item).data } = f c),
              (s.calls.set i { c with copied := some (s.items c.item).data }).map f = s.calls.map f := by
            intro β f hf
            rw [List.map_set, hf, ← hci, ← List.getElem_map f (h := by simpa using hi)]
            exact List.set_getElem_self _
          have ho := hmap (·.item) rfl
          refine ⟨_, rfl, ?_, ?_, h.fresh, h.free, ?_, h.content, ?_, h.rets, ?_, h.len⟩
          · simp only [owned, waiting]; rw [ho]; exact h.nodup
          · simp only [owned, waiting]; rw [ho]; exact h.lt
          · simp only [waiting]; rw [ho]; exact h.busy
          · intro y hy
            rcases List.mem_or_eq_of_mem_set hy with hy | rfl
            · exact h.calls y hy
            · exact ⟨(h.calls c hm).1, fun d hd => by cases hd; rfl⟩
          · simp only; rw [hmap (·.seq) rfl]; exact h.seqs
  | release i =>
    simp only [step]
    cases hg : s.calls[i]? with
    | none => right; rfl
    | some c =>
      obtain ⟨hm, hpm, hi, hci⟩ := mem_of_get hg
      dsimp only
      cases hcp : c.copied with
      | none => right; rfl
      | some d =>
        left
        dsimp only
        have hbz : (s.items c.item).busy = true :=
          h.busy _ (by simp only [List.mem_append, List.mem_map]; exact .inr ⟨c, hm, rfl⟩)
        rw [if_pos hbz]
        have hd := (h.calls c hm).2 d hcp
        have hperm : (owned s).Perm (c.item :: (s.pool ++ (waiting s ++ (s.calls.eraseIdx i).map (·.item)))) := by
          simp only [owned]
          refine ((((hpm.map (·.item))).append_left _).append_left _).trans ?_
          rw [List.map_cons]
          exact (List.Perm.append_left _ List.perm_middle).trans List.perm_middle
        have hnd' := h.nodup
        rw [hperm.nodup_iff, List.nodup_cons] at hnd'
        obtain ⟨hnc, hnr⟩ := hnd'
        have hset : ∀ x, x ≠ c.item → setItem s.items c.item ⟨[], false⟩ x = s.items x :=
          fun x hx => by simp [setItem, hx]
        have hneW : ∀ x ∈ waiting s, x ≠ c.item := by
          intro x hx he; subst he
          exact hnc (by simp only [List.mem_append]; exact .inr (.inl hx))
        have hneC : ∀ x ∈ s.calls.eraseIdx i, x.item ≠ c.item := by
          intro x hx he
          refine hnc ?_
          simp only [List.mem_append, List.mem_map]
          exact .inr (.inr ⟨x, hx, he⟩)
        have hnext : c.item < s.next := h.lt _ (by rw [hperm.mem_iff]; exact List.mem_cons_self)
        refine ⟨_, rfl, ?_, ?_, ?_, ?_, ?_, ?_, ?_, ?_, ?_, h.len⟩
        · show (c.item :: (s.pool ++ (waiting s ++ (s.calls.eraseIdx i).map (·.item)))).Nodup
          exact List.nodup_cons.mpr ⟨hnc, hnr⟩
        · intro x hx
          apply h.lt
          rw [hperm.mem_iff]; exact hx
        · intro x hx
          simp only at hx ⊢
          rw [hset x (by omega)]; exact h.fresh x hx
        · intro x hx
          simp only [List.mem_cons] at hx ⊢
          by_cases he : x = c.item
          · simp [setItem, he]
          · rw [hset x he]
            rcases hx with hx | hx
            · exact absurd hx he
            · exact h.free x hx
        · intro x hx
          simp only [List.mem_append, List.mem_map] at hx
          simp only
          rcases hx with hx | ⟨y, hy, rfl⟩
          · rw [hset x (hneW x hx)]
            exact h.busy x (by simp only [List.mem_append]; exact .inl hx)
          · rw [hset _ (hneC y hy)]
            exact h.busy _ (by simp only [List.mem_append, List.mem_map]; exact .inr ⟨y, List.mem_of_mem_eraseIdx hy, rfl⟩)
        · show s.arrived.drop s.taken = (waiting s).map _
          rw [h.content]
          apply List.map_congr_left
          intro x hx
          simp only
          rw [hset x (hneW x hx)]
        · intro y hy
          simp only at hy ⊢
          rw [hset _ (hneC y hy)]
          exact h.calls y (List.mem_of_mem_eraseIdx hy)
        · intro r hr
          simp only [List.mem_append, List.mem_singleton] at hr
          rcases hr with hr | rfl
          · exact h.rets r hr
          · subst hd; exact (h.calls c hm).1
        · simp only [List.filterMap_append, List.filterMap_cons, Ret.seq?, List.filterMap_nil, List.append_assoc]
          refine List.Perm.trans (List.Perm.append_left _ ?_) h.seqs
          exact ((hpm.map (·.seq))).symm
  | gc i =>
    simp only [step]
    by_cases hi : i ∈ s.pool
    · left
      rw [if_pos hi]
      have hsub : ∀ x ∈ owned { s with pool := s.pool.erase i }, x ∈ owned s := by
        intro x hx
        simp only [owned, List.mem_append] at hx ⊢
        rcases hx with hx | hx
        · exact .inl (List.mem_of_mem_erase hx)
        · exact .inr hx
      refine ⟨_, rfl, ?_, fun x hx => h.lt x (hsub x hx), h.fresh, fun x hx => h.free x (List.mem_of_mem_erase hx),
        h.busy, h.content, h.calls, h.rets, h.seqs, h.len⟩
      simp only [owned]
      rw [List.nodup_append]
      exact ⟨hn1.erase i, hn2, fun a ha b hb => hn3 a (List.mem_of_mem_erase ha) b hb⟩
    · right; rw [if_neg hi]

theorem inv_reachable (s : State) (h : Reachable s) : Inv s := by
  induction h with
  | init => exact inv_init
  | step a _ hs ih =>
    rcases inv_step _ a ih with ⟨s'', h1, h2⟩ | h1
    · rw [h1] at hs; cases hs; exact h2
    · rw [h1] at hs; cases hs

end Verif.ReadQueue
