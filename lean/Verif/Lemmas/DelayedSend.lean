import Verif.Model.DelayedSend
/-! Reference counts of the delayed sending (helpers). -/
namespace Verif.DelayedSend

@[simp] theorem setInfo_same (f : Nat → Info) (i : Nat) (v : Info) : setInfo f i v i = v := by simp [setInfo]
theorem setInfo_other {f : Nat → Info} {i j : Nat} {v : Info} (h : j ≠ i) : setInfo f i v j = f j := by
  simp [setInfo, h]

/-- The heap and the pool agree with the list `H` of held references; those of `F` are held by owners whose
`SendInfo` must be in use. -/
structure RefOK (infos : Nat → Info) (next : Nat) (pool H F : List Nat) : Prop where
  le : ∀ x, (H.count x : Int) ≤ (infos x).refs
  firm : ∀ x ∈ F, (infos x).busy = true
  firmHeld : ∀ x ∈ F, x ∈ H
  stale : ∀ x, (infos x).busy = false → 0 < H.count x → (H.count x : Int) < (infos x).refs
  poolFree : ∀ x ∈ pool, (infos x).busy = false
  poolLt : ∀ x ∈ pool, x < next
  poolNodup : pool.Nodup
  fresh : ∀ x, next ≤ x → (infos x).refs = 0 ∧ (infos x).busy = false

theorem RefOK.change {infos next pool H F H' F'} (h : RefOK infos next pool H F)
    (hc : ∀ x, H'.count x ≤ H.count x) (hf : ∀ x ∈ F', x ∈ F) (hh : ∀ x ∈ F', x ∈ H') :
    RefOK infos next pool H' F' where
  le x := by have := h.le x; have := hc x; omega
  firm x hx := h.firm x (hf x hx)
  firmHeld := hh
  stale x hb hp := by
    have h1 := h.stale x hb (by have := hc x; omega)
    have := hc x; omega
  poolFree := h.poolFree
  poolLt := h.poolLt
  poolNodup := h.poolNodup
  fresh := h.fresh

theorem RefOK.update {infos next pool H F} (h : RefOK infos next pool H F) {x : Nat} {v : Info}
    (hr : v.refs = (infos x).refs) (hb : v.busy = (infos x).busy) :
    RefOK (setInfo infos x v) next pool H F := by
  have hrefs : ∀ y, (setInfo infos x v y).refs = (infos y).refs := by
    intro y; by_cases e : y = x
    · subst e; simp [hr]
    · rw [setInfo_other e]
  have hbusy : ∀ y, (setInfo infos x v y).busy = (infos y).busy := by
    intro y; by_cases e : y = x
    · subst e; simp [hb]
    · rw [setInfo_other e]
  exact { le := fun y => by rw [hrefs]; exact h.le y
          firm := fun y hy => by rw [hbusy]; exact h.firm y hy
          firmHeld := h.firmHeld
          stale := fun y => by rw [hbusy, hrefs]; exact h.stale y
          poolFree := fun y hy => by rw [hbusy]; exact h.poolFree y hy
          poolLt := h.poolLt, poolNodup := h.poolNodup
          fresh := fun y hy => by rw [hrefs, hbusy]; exact h.fresh y hy }

theorem RefOK.held_lt {infos next pool H F} (h : RefOK infos next pool H F) {x : Nat} (hx : x ∈ H) : x < next := by
  have h1 := h.le x
  have h2 : 0 < H.count x := List.count_pos_iff.2 hx
  by_cases hlt : x < next
  · exact hlt
  · have := (h.fresh x (by omega)).1; omega

/-- A new reference, seen as not the first one. -/
theorem RefOK.inc {infos next pool H F} (h : RefOK infos next pool H F) {x : Nat} (hx : x < next)
    (h1 : (infos x).refs + 1 ≠ 1) :
    RefOK (setInfo infos x { infos x with refs := (infos x).refs + 1 }) next pool (x :: H) F where
  le y := by
    have := h.le y
    by_cases e : y = x
    · subst e; simp; omega
    · rw [setInfo_other e, List.count_cons_of_ne (Ne.symm e)]; exact this
  firm y hy := by
    by_cases e : y = x
    · subst e; simp [h.firm y hy]
    · rw [setInfo_other e]; exact h.firm y hy
  firmHeld y hy := List.mem_cons_of_mem _ (h.firmHeld y hy)
  stale y hb hp := by
    by_cases e : y = x
    · subst e
      simp at hb ⊢
      have := h.le y
      by_cases h0 : 0 < H.count y
      · have := h.stale y hb h0; omega
      · omega
    · rw [setInfo_other e, List.count_cons_of_ne (Ne.symm e)] at *
      exact h.stale y hb hp
  poolFree y hy := by
    by_cases e : y = x
    · subst e; simp [h.poolFree y hy]
    · rw [setInfo_other e]; exact h.poolFree y hy
  poolLt := h.poolLt
  poolNodup := h.poolNodup
  fresh y hy := by rw [setInfo_other (by omega)]; exact h.fresh y hy

/-- A leaked reference. -/
theorem RefOK.leak {infos next pool H F} (h : RefOK infos next pool H F) {x : Nat} (hx : x < next) :
    RefOK (setInfo infos x { infos x with refs := (infos x).refs + 1 }) next pool H F where
  le y := by
    have := h.le y
    by_cases e : y = x
    · subst e; simp; omega
    · rw [setInfo_other e]; exact this
  firm y hy := by
    by_cases e : y = x
    · subst e; simp [h.firm y hy]
    · rw [setInfo_other e]; exact h.firm y hy
  firmHeld y hy := h.firmHeld y hy
  stale y hb hp := by
    by_cases e : y = x
    · subst e
      simp at hb ⊢
      have := h.le y
      have := h.stale y hb hp; omega
    · rw [setInfo_other e] at *
      exact h.stale y hb hp
  poolFree y hy := by
    by_cases e : y = x
    · subst e; simp [h.poolFree y hy]
    · rw [setInfo_other e]; exact h.poolFree y hy
  poolLt := h.poolLt
  poolNodup := h.poolNodup
  fresh y hy := by rw [setInfo_other (by omega)]; exact h.fresh y hy

/-- What `acquire` does. -/
structure Acquired (s s' : State) (n : Nat) : Prop where
  free : (s.infos n).busy = false
  lt : n < s'.next
  le : s.next ≤ s'.next
  info : s'.infos n = ⟨(s.infos n).refs + 1, true, false, (s.infos n).err, s.ids + 1, (s.infos n).batch⟩
  other : ∀ x, x ≠ n → s'.infos x = s.infos x
  eq : s' = { s with infos := s'.infos, next := s'.next, pool := s'.pool, ids := s'.ids }
  pool : ∀ x ∈ s'.pool, x ∈ s.pool
  notPooled : n ∉ s'.pool

theorem acquire_ok {s s' : State} {r n} {H F : List Nat} (h : RefOK s.infos s.next s.pool H F)
    (ha : acquire s r = .ok (s', n)) :
    Acquired s s' n ∧ RefOK s'.infos s'.next s'.pool (n :: H) (n :: F) := by
  have key : ∀ n' pool', (s.infos n').busy = false → (∀ x ∈ pool', x ∈ s.pool) → n' ∉ pool' → pool'.Nodup →
      ∀ next', s.next ≤ next' → n' < next' →
      RefOK (setInfo s.infos n' ⟨(s.infos n').refs + 1, true, false, (s.infos n').err, s.ids + 1, (s.infos n').batch⟩)
        next' pool' (n' :: H) (n' :: F) := by
    intro n' pool' hfree hsub hnot hnd next' hle hlt
    exact { le := fun y => by
              have := h.le y
              by_cases e : y = n'
              · subst e; simp; omega
              · rw [setInfo_other e, List.count_cons_of_ne (Ne.symm e)]; exact this
            firm := fun y hy => by
              by_cases e : y = n'
              · subst e; simp
              · rw [setInfo_other e]; exact h.firm y (by rcases List.mem_cons.1 hy with h1 | h1; exact absurd h1 e; exact h1)
            firmHeld := fun y hy => by
              rcases List.mem_cons.1 hy with h1 | h1
              · exact List.mem_cons.2 (.inl h1)
              · exact List.mem_cons_of_mem _ (h.firmHeld y h1)
            stale := fun y hb hp => by
              by_cases e : y = n'
              · subst e; simp at hb
              · rw [setInfo_other e, List.count_cons_of_ne (Ne.symm e)] at *
                exact h.stale y hb hp
            poolFree := fun y hy => by
              have e : y ≠ n' := fun e => hnot (e ▸ hy)
              rw [setInfo_other e]; exact h.poolFree y (hsub y hy)
            poolLt := fun y hy => by have := h.poolLt y (hsub y hy); omega
            poolNodup := hnd
            fresh := fun y hy => by rw [setInfo_other (by omega)]; exact h.fresh y (by omega) }
  unfold acquire at ha
  cases r with
  | none =>
    simp only [Outcome.ok.injEq, Prod.mk.injEq] at ha
    obtain ⟨rfl, rfl⟩ := ha
    have hf := h.fresh s.next (Nat.le_refl _)
    have hn : s.next ∉ s.pool := fun hm => by have := h.poolLt _ hm; omega
    refine ⟨⟨hf.2, by simp, by simp, by simp, fun x hx => by simp [setInfo_other hx], rfl, fun x hx => hx, hn⟩, ?_⟩
    exact key s.next s.pool hf.2 (fun x hx => hx) hn h.poolNodup (s.next + 1) (by omega) (by omega)
  | some k =>
    simp only at ha
    split at ha
    · rename_i hm
      split at ha
      · exact absurd ha (by simp)
      · rename_i hb
        simp only [Outcome.ok.injEq, Prod.mk.injEq] at ha
        obtain ⟨rfl, rfl⟩ := ha
        have hb' : (s.infos k).busy = false := by simpa using hb
        have hn : k ∉ s.pool.erase k := fun hm' => absurd (h.poolNodup.mem_erase_iff.1 hm').1 (by simp)
        refine ⟨⟨hb', h.poolLt k hm, by simp, by simp, fun x hx => by simp [setInfo_other hx], rfl,
          fun x hx => List.mem_of_mem_erase hx, hn⟩, ?_⟩
        exact key k _ hb' (fun x hx => List.mem_of_mem_erase hx) hn (h.poolNodup.erase k) s.next (by omega) (h.poolLt k hm)
    · exact absurd ha (by simp)

theorem acquire_no_err {s : State} {r e} {H F : List Nat} (h : RefOK s.infos s.next s.pool H F) :
    acquire s r ≠ .err e := by
  unfold acquire
  cases r with
  | none => simp
  | some k =>
    simp only
    split
    · rename_i hm
      rw [h.poolFree k hm]; simp
    · simp

theorem acquire_no_panic {s : State} {r} : acquire s r ≠ .panic := by
  unfold acquire
  cases r with
  | none => simp
  | some k => simp only; split <;> (try split) <;> simp

/-- What a successful `release` does. -/
structure Released (s s' : State) (x : Nat) : Prop where
  fin : (s.infos x).closed = true ∨ s.ctx = true
  other : ∀ y, y ≠ x → s'.infos y = s.infos y
  closed : (s'.infos x).closed = (s.infos x).closed
  batch : (s'.infos x).batch = (s.infos x).batch
  sendID : (s'.infos x).sendID = (s.infos x).sendID
  busy : (s'.infos x).busy = true → s'.infos x = { s.infos x with refs := (s.infos x).refs - 1 }
  eq : s' = { s with infos := s'.infos, pool := s'.pool }

theorem release_ok {s s' : State} {x : Nat} {H F F' : List Nat} (h : RefOK s.infos s.next s.pool (x :: H) F)
    (hf : ∀ y ∈ F', y ∈ F) (hh : ∀ y ∈ F', y ∈ H) (hr : release s x = .ok s') :
    Released s s' x ∧ RefOK s'.infos s'.next s'.pool H F' := by
  have hle := h.le x
  simp only [List.count_cons_self] at hle
  unfold release at hr
  simp only at hr
  split at hr
  · exact absurd hr (by simp)
  rename_i hfin
  have hfin' : (s.infos x).closed = true ∨ s.ctx = true := by
    cases hc : (s.infos x).closed <;> cases hd : s.ctx <;> simp_all
  split at hr
  · rename_i hpos
    simp only [Outcome.ok.injEq] at hr; subst hr
    refine ⟨⟨hfin', fun y hy => by simp [setInfo_other hy], by simp, by simp, by simp, by simp, rfl⟩, ?_⟩
    exact { le := fun y => by
              by_cases e : y = x
              · subst e; simp; omega
              · simp only [setInfo_other e]; have := h.le y; rw [List.count_cons_of_ne (Ne.symm e)] at this; exact this
            firm := fun y hy => by
              by_cases e : y = x
              · subst e; simp [h.firm y (hf y hy)]
              · simp only [setInfo_other e]; exact h.firm y (hf y hy)
            firmHeld := hh
            stale := fun y hb hp => by
              by_cases e : y = x
              · subst e
                simp at hb ⊢
                have := h.stale y hb (by simp)
                simp at this; omega
              · simp only [setInfo_other e] at *
                have := h.stale y hb (by rw [List.count_cons_of_ne (Ne.symm e)]; exact hp)
                rw [List.count_cons_of_ne (Ne.symm e)] at this; exact this
            poolFree := fun y hy => by
              by_cases e : y = x
              · subst e; simp [h.poolFree y hy]
              · simp only [setInfo_other e]; exact h.poolFree y hy
            poolLt := h.poolLt
            poolNodup := h.poolNodup
            fresh := fun y hy => by
              have := h.held_lt (x := x) (by simp)
              have e : y ≠ x := by simp only at hy; omega
              simp only [setInfo_other e]; exact h.fresh y hy }
  · rename_i hpos
    split at hr
    · exact absurd hr (by simp)
    · rename_i hneg
      split at hr
      · exact absurd hr (by simp)
      · rename_i hb
        simp only [Outcome.ok.injEq] at hr; subst hr
        have hbusy : (s.infos x).busy = true := by simpa using hb
        have h0 : H.count x = 0 := by omega
        have hx : x ∉ H := fun hm => by have := List.count_pos_iff.2 hm; omega
        have hxp : x ∉ s.pool := fun hm => by have := h.poolFree x hm; simp [hbusy] at this
        refine ⟨⟨hfin', fun y hy => by simp [setInfo_other hy], by simp, by simp, by simp, by simp, rfl⟩, ?_⟩
        exact { le := fun y => by
                  by_cases e : y = x
                  · subst e; simp [h0]
                  · simp only [setInfo_other e]; have := h.le y
                    rw [List.count_cons_of_ne (Ne.symm e)] at this; exact this
                firm := fun y hy => by
                  have e : y ≠ x := fun e => hx (e ▸ hh y hy)
                  simp only [setInfo_other e]; exact h.firm y (hf y hy)
                firmHeld := hh
                stale := fun y hb hp => by
                  by_cases e : y = x
                  · subst e; omega
                  · simp only [setInfo_other e] at *
                    have := h.stale y hb (by rw [List.count_cons_of_ne (Ne.symm e)]; exact hp)
                    rw [List.count_cons_of_ne (Ne.symm e)] at this; exact this
                poolFree := fun y hy => by
                  by_cases e : y = x
                  · subst e; simp
                  · simp only [setInfo_other e]
                    exact h.poolFree y (by rcases List.mem_cons.1 hy with h1 | h1; exact absurd h1 e; exact h1)
                poolLt := fun y hy => by
                  rcases List.mem_cons.1 hy with h1 | h1
                  · subst h1; exact h.held_lt (by simp)
                  · exact h.poolLt y h1
                poolNodup := List.nodup_cons.2 ⟨hxp, h.poolNodup⟩
                fresh := fun y hy => by
                  have := h.held_lt (x := x) (by simp)
                  have e : y ≠ x := by simp only at hy; omega
                  simp only [setInfo_other e]; exact h.fresh y hy }

/-- The only way for `release` of a held reference to fail. -/
theorem release_err {s : State} {x : Nat} {H F : List Nat} {e : Crash}
    (h : RefOK s.infos s.next s.pool (x :: H) F) (hr : release s x = .err e) :
    e = .unfinishedRelease ∧ (s.infos x).closed = false ∧ s.ctx = false := by
  have hle := h.le x
  simp only [List.count_cons_self] at hle
  unfold release at hr
  simp only at hr
  split at hr
  · rename_i hc
    simp only [Outcome.err.injEq] at hr
    exact ⟨hr.symm, hc.1, hc.2⟩
  split at hr
  · exact absurd hr (by simp)
  split at hr
  · rename_i h1; omega
  split at hr
  · rename_i hb
    have := h.stale x hb (by simp)
    simp at this; omega
  · exact absurd hr (by simp)

theorem release_no_panic {s : State} {x : Nat} : release s x ≠ .panic ∧ release s x ≠ .block := by
  unfold release; simp only
  constructor <;> (repeat' split) <;> simp

/-! ### References held in a state -/

def Flush.held : Flush → List Nat
  | .acquired n => [n]
  | .swapped x _ => [x]
  | .checked x _ => [x]
  | .wrote x _ _ => [x]
  | .ended x _ => [x]

def Main.held : Main → List Nat
  | .connecting f => f.held
  | .got x => [x]
  | .flush d f => d.toList ++ f.held
  | .leaving x => [x]
  | _ => []

def Main.firm : Main → List Nat
  | .connecting f => f.held
  | .flush _ f => f.held
  | _ => []

def Closer.held : Closer → List Nat
  | .flush f => f.held
  | _ => []

def Writer.held : Writer → List Nat
  | .poking x _ _ => [x]
  | _ => []

def Writer.knows : Writer → List Nat
  | .retry _ => []
  | .full x _ => [x]
  | .poking x _ _ => [x]
  | .waiting x _ => [x]
  | .again x _ => [x]

def User.held (u : User) : List Nat := if u.sendNow then [u.info, u.info] else [u.info]

/-- All references held in `s`. -/
def held (s : State) : List Nat :=
  s.cur :: (s.main.held ++ s.closer.held ++ s.writers.flatMap Writer.held ++ s.users.flatMap User.held)

/-- Those whose `SendInfo` must be in use. -/
def firm (s : State) : List Nat := s.cur :: (s.main.firm ++ s.closer.held ++ s.users.map User.info)

/-- The reference count invariant. -/
structure RInv (s : State) : Prop where
  ref : RefOK s.infos s.next s.pool (held s) (firm s)
  knows : ∀ w ∈ s.writers, ∀ x ∈ w.knows, x < s.next

theorem count_flatMap_erase {α : Type} (f : α → List Nat) (x : Nat) :
    ∀ (l : List α) (i : Nat) (a : α), l[i]? = some a →
      (l.flatMap f).count x = ((l.eraseIdx i).flatMap f).count x + (f a).count x := by
  intro l
  induction l with
  | nil => intro i a h; simp at h
  | cons b l ih =>
    intro i a h
    cases i with
    | zero => simp at h; subst h; simp [List.count_append]; omega
    | succ i =>
      simp at h
      simp [List.count_append, ih i a h]; omega

theorem mem_of_eraseIdx {α : Type} {l : List α} {i : Nat} {a : α} (h : a ∈ l.eraseIdx i) : a ∈ l :=
  (List.eraseIdx_sublist l i).subset h

theorem firm_sub_held_users (us : List User) : ∀ x ∈ us.map User.info, x ∈ us.flatMap User.held := by
  intro x hx
  obtain ⟨u, hu, rfl⟩ := List.mem_map.1 hx
  exact List.mem_flatMap.2 ⟨u, hu, by unfold User.held; split <;> simp⟩

theorem main_firm_held (m : Main) : ∀ x ∈ m.firm, x ∈ m.held := by
  cases m <;> simp [Main.firm, Main.held] <;> (intros; simp [*])

theorem firm_sub_held (s : State) : ∀ x ∈ firm s, x ∈ held s := by
  intro x hx
  simp only [firm, held, List.mem_cons, List.mem_append] at *
  rcases hx with h | (h | h) | h
  · exact .inl h
  · exact .inr (.inl (.inl (.inl (main_firm_held _ x h))))
  · exact .inr (.inl (.inl (.inr h)))
  · exact .inr (.inr (firm_sub_held_users _ x h))

theorem rinv_init : RInv State.init where
  ref := { le := fun x => by
             by_cases e : x = 0
             · subst e; simp [State.init, held, Main.held, Closer.held]
             · simp [State.init, held, Main.held, Closer.held, setInfo_other e, List.count_cons, Ne.symm e]
           firm := by simp [State.init, firm, Main.firm, Closer.held]
           firmHeld := firm_sub_held _
           stale := fun x hb hp => by
             by_cases e : x = 0
             · subst e; simp [State.init] at hb
             · simp [State.init, held, Main.held, Closer.held, List.count_cons, Ne.symm e] at hp
           poolFree := by simp [State.init]
           poolLt := by simp [State.init]
           poolNodup := by simp [State.init]
           fresh := fun x hx => by
             have e : x ≠ 0 := by simp [State.init] at hx; omega
             simp [State.init, setInfo_other e] }
  knows := by simp [State.init]

/-- References of the rest of a flush. -/
def FRes.held : FRes → List Nat
  | .running f => f.held
  | .over _ _ => []

theorem setResult_ref {s : State} {x : Nat} {ok : Bool} {H F : List Nat}
    (h : RefOK s.infos s.next s.pool H F) :
    RefOK (setResult s x ok).infos (setResult s x ok).next (setResult s x ok).pool H F :=
  h.update (by rfl) (by rfl)

theorem flushStep_ref {s s' : State} {f : Flush} {a : FAct} {r : FRes} {R FR : List Nat}
    (hsub : ∀ x ∈ FR, x ∈ R)
    (h : RefOK s.infos s.next s.pool (s.cur :: (f.held ++ R)) (s.cur :: (f.held ++ FR)))
    (hs : flushStep s f a = .ok (s', r)) :
    RefOK s'.infos s'.next s'.pool (s'.cur :: (r.held ++ R)) (s'.cur :: (r.held ++ FR)) := by
  unfold flushStep at hs
  split at hs
  · -- swap
    rename_i n
    simp only [Outcome.ok.injEq, Prod.mk.injEq] at hs
    obtain ⟨rfl, rfl⟩ := hs
    refine RefOK.update (h.change ?_ ?_ ?_) rfl rfl
    · intro x; simp [FRes.held, Flush.held, List.count_cons]; omega
    · intro x hx; simp [FRes.held, Flush.held] at *; grind
    · intro x hx; simp [FRes.held, Flush.held] at *
      rcases hx with h1 | h1 | h1
      · exact .inl h1
      · exact .inr (.inl h1)
      · exact .inr (.inr (hsub x h1))
  · split at hs
    · exact absurd hs (by simp)
    · simp only [Outcome.ok.injEq, Prod.mk.injEq] at hs
      obtain ⟨rfl, rfl⟩ := hs
      exact setResult_ref h
  · split at hs
    · exact absurd hs (by simp)
    · split at hs
      · simp only [Outcome.ok.injEq, Prod.mk.injEq] at hs
        obtain ⟨rfl, rfl⟩ := hs
        exact setResult_ref h
      · simp only [Outcome.ok.injEq, Prod.mk.injEq] at hs
        obtain ⟨rfl, rfl⟩ := hs
        exact h
  · simp only [Outcome.ok.injEq, Prod.mk.injEq] at hs
    obtain ⟨rfl, rfl⟩ := hs
    exact setResult_ref h
  · split at hs
    · exact absurd hs (by simp)
    · split at hs
      · exact absurd hs (by simp)
      · simp only [Outcome.ok.injEq, Prod.mk.injEq] at hs
        obtain ⟨rfl, rfl⟩ := hs
        exact h.update rfl rfl
  · split at hs
    · exact absurd hs (by simp)
    · simp only [Outcome.ok.injEq, Prod.mk.injEq] at hs
      obtain ⟨rfl, rfl⟩ := hs
      exact h.update rfl rfl
  · rename_i x msgs
    split at hs <;> try (simp at hs; done)
    rename_i s1 hrel
    simp only [Outcome.ok.injEq, Prod.mk.injEq] at hs
    obtain ⟨rfl, rfl⟩ := hs
    have h' : RefOK s.infos s.next s.pool (x :: (s.cur :: R)) (x :: (s.cur :: FR)) :=
      h.change (by intro y; simp [Flush.held, List.count_cons]; omega)
        (by intro y hy; simp [Flush.held] at *; grind)
        (by intro y hy; simp at *; rcases hy with h1 | h1 | h1
            · exact .inl h1
            · exact .inr (.inl h1)
            · exact .inr (.inr (hsub y h1)))
    have hr := release_ok (F' := s.cur :: FR) h' (by intro y hy; exact List.mem_cons_of_mem _ hy) (by
      intro y hy; simp at *; rcases hy with h1 | h1
      · exact .inl h1
      · exact .inr (hsub y h1)) hrel
    have : s1.cur = s.cur := by rw [hr.1.eq]
    simpa [FRes.held, this] using hr.2
  · exact absurd hs (by simp)

theorem flushStep_frame {s s' : State} {f : Flush} {a : FAct} {r : FRes}
    (hs : flushStep s f a = .ok (s', r)) :
    s' = { s with infos := s'.infos, pool := s'.pool, cur := s'.cur, buf := s'.buf, swaps := s'.swaps
                  status := s'.status, wire := s'.wire } := by
  unfold flushStep at hs
  split at hs
  · simp only [Outcome.ok.injEq, Prod.mk.injEq] at hs
    obtain ⟨rfl, rfl⟩ := hs; rfl
  · split at hs
    · exact absurd hs (by simp)
    · simp only [Outcome.ok.injEq, Prod.mk.injEq] at hs
      obtain ⟨rfl, rfl⟩ := hs; rfl
  · split at hs
    · exact absurd hs (by simp)
    · split at hs
      · simp only [Outcome.ok.injEq, Prod.mk.injEq] at hs
        obtain ⟨rfl, rfl⟩ := hs; rfl
      · simp only [Outcome.ok.injEq, Prod.mk.injEq] at hs
        obtain ⟨rfl, rfl⟩ := hs; rfl
  · simp only [Outcome.ok.injEq, Prod.mk.injEq] at hs
    obtain ⟨rfl, rfl⟩ := hs; rfl
  · split at hs
    · exact absurd hs (by simp)
    · split at hs
      · exact absurd hs (by simp)
      · simp only [Outcome.ok.injEq, Prod.mk.injEq] at hs
        obtain ⟨rfl, rfl⟩ := hs; rfl
  · split at hs
    · exact absurd hs (by simp)
    · simp only [Outcome.ok.injEq, Prod.mk.injEq] at hs
      obtain ⟨rfl, rfl⟩ := hs; rfl
  · rename_i x msgs
    split at hs <;> try (simp at hs; done)
    rename_i s1 hrel
    simp only [Outcome.ok.injEq, Prod.mk.injEq] at hs
    obtain ⟨rfl, rfl⟩ := hs
    unfold release at hrel
    simp only at hrel
    repeat' split at hrel
    all_goals try (simp at hrel; done)
    all_goals (simp only [Outcome.ok.injEq] at hrel; subst hrel; rfl)
  · exact absurd hs (by simp)

/-- A flush can only fail by closing its channel twice or by an unfinished release. -/
theorem flushStep_err {s : State} {f : Flush} {a : FAct} {e : Crash} {R FR : List Nat}
    (hsub : ∀ x ∈ FR, x ∈ R)
    (h : RefOK s.infos s.next s.pool (s.cur :: (f.held ++ R)) (s.cur :: (f.held ++ FR)))
    (hs : flushStep s f a = .err e) :
    (e = .doubleClose ∧ ∃ x msgs, (f = .swapped x msgs ∨ ∃ ok, f = .wrote x msgs ok) ∧ (s.infos x).closed = true) ∨
    (e = .unfinishedRelease ∧ ∃ x msgs, f = .ended x msgs ∧ (s.infos x).closed = false) := by
  unfold flushStep at hs
  split at hs
  · exact absurd hs (by simp)
  · split at hs <;> exact absurd hs (by simp)
  · split at hs
    · exact absurd hs (by simp)
    · split at hs <;> exact absurd hs (by simp)
  · exact absurd hs (by simp)
  · rename_i x msgs
    split at hs
    · exact absurd hs (by simp)
    · split at hs
      · rename_i hc
        simp only [Outcome.err.injEq] at hs
        exact .inl ⟨hs.symm, x, msgs, .inl rfl, hc⟩
      · exact absurd hs (by simp)
  · rename_i x msgs ok
    split at hs
    · rename_i hc
      simp only [Outcome.err.injEq] at hs
      exact .inl ⟨hs.symm, x, msgs, .inr ⟨ok, rfl⟩, hc⟩
    · exact absurd hs (by simp)
  · rename_i x msgs
    split at hs <;> try (simp at hs; done)
    rename_i e' hrel
    simp only [Outcome.err.injEq] at hs; subst hs
    have h' : RefOK s.infos s.next s.pool (x :: (s.cur :: R)) (x :: (s.cur :: FR)) :=
      h.change (by intro y; simp [Flush.held, List.count_cons]; omega)
        (by intro y hy; simp [Flush.held] at *; grind)
        (by intro y hy; simp at *; rcases hy with h1 | h1 | h1
            · exact .inl h1
            · exact .inr (.inl h1)
            · exact .inr (.inr (hsub y h1)))
    have := release_err h' hrel
    exact .inr ⟨this.1, x, msgs, rfl, this.2.1⟩
  · exact absurd hs (by simp)

theorem count_held (s : State) (x : Nat) :
    (held s).count x = (if s.cur = x then 1 else 0) + s.main.held.count x + s.closer.held.count x +
      (s.writers.flatMap Writer.held).count x + (s.users.flatMap User.held).count x := by
  simp [held, List.count_cons, List.count_append]; omega

/-- Heap facts for another state with the same references. -/
theorem RInv.of {s' : State} (H F : List Nat) (h : RefOK s'.infos s'.next s'.pool H F)
    (hc : ∀ x, (held s').count x ≤ H.count x) (hf : ∀ x ∈ firm s', x ∈ F)
    (hk : ∀ w ∈ s'.writers, ∀ x ∈ w.knows, x < s'.next) : RInv s' :=
  ⟨h.change hc hf (firm_sub_held s'), hk⟩

theorem knows_mono {s s' : State} (h : RInv s) (hn : s.next ≤ s'.next)
    (hw : ∀ w ∈ s'.writers, w ∈ s.writers ∨ ∀ x ∈ w.knows, x < s.next) :
    ∀ w ∈ s'.writers, ∀ x ∈ w.knows, x < s'.next := by
  intro w hwm x hx
  rcases hw w hwm with h1 | h1
  · have := h.knows w h1 x hx; omega
  · have := h1 x hx; omega

theorem acquireError_ok {s s' : State} {r n} {H F : List Nat} (h : RefOK s.infos s.next s.pool H F)
    (ha : acquireError s r = .ok (s', n)) :
    ∃ s1, acquire s r = .ok (s1, n) ∧ Acquired s s1 n ∧
      s' = { s1 with infos := setInfo s1.infos n { s1.infos n with err := true, closed := true } } ∧
      RefOK s'.infos s'.next s'.pool (n :: H) (n :: F) := by
  unfold acquireError at ha
  split at ha
  · rename_i s1 n1 h1
    simp only [Outcome.ok.injEq, Prod.mk.injEq] at ha
    obtain ⟨rfl, rfl⟩ := ha
    have := acquire_ok h h1
    exact ⟨s1, h1, this.1, rfl, this.2.update rfl rfl⟩
  · rename_i hx
    exact absurd ha (hx s' n)

theorem acquireError_no_err {s : State} {r e} {H F : List Nat} (h : RefOK s.infos s.next s.pool H F) :
    acquireError s r ≠ .err e ∧ acquireError s r ≠ .panic := by
  unfold acquireError
  constructor
  · split
    · simp
    · exact acquire_no_err h
  · split
    · simp
    · exact acquire_no_panic

theorem rinv_tryAppend {cfg : Cfg} {s s' : State} {m : Bytes} {r : Option Nat} (h : RInv s)
    (hs : tryAppend cfg s m r = .ok s') : RInv s' := by
  unfold tryAppend at hs
  split at hs
  · exact absurd hs (by simp)
  split at hs
  · split at hs
    · split at hs <;> try (simp at hs; done)
      rename_i s1 n h1
      simp only [Outcome.ok.injEq] at hs; subst hs
      obtain ⟨s0, _, ha, he, hr⟩ := acquireError_ok h.ref h1
      have e := ha.eq
      have ecur : s1.cur = s.cur := by rw [he, e]
      have emain : s1.main = s.main := by rw [he, e]
      have eclo : s1.closer = s.closer := by rw [he, e]
      have ew : s1.writers = s.writers := by rw [he, e]
      have eu : s1.users = s.users := by rw [he, e]
      have hnx : s.next ≤ s1.next := by rw [he]; exact ha.le
      refine RInv.of _ _ hr ?_ ?_ ?_
      · intro x
        rw [List.count_cons]
        simp [count_held, ecur, emain, eclo, ew, eu, User.held, List.count_cons]
        omega
      · intro x hx
        simp [firm, ecur, emain, eclo, eu] at hx ⊢
        grind
      · exact knows_mono h hnx (fun w hw => by simp [ew] at hw; exact .inl hw)
    · simp only [Outcome.ok.injEq] at hs; subst hs
      refine RInv.of _ _ h.ref ?_ (fun x hx => hx) ?_
      · intro x; simp [count_held, Writer.held]
      · refine knows_mono h (Nat.le_refl _) ?_
        intro w hw
        simp at hw
        rcases hw with h1 | h1
        · exact .inl h1
        · right; subst h1
          intro x hx
          simp [Writer.knows] at hx; subst hx
          exact h.ref.held_lt (by simp [held])
  · simp only at hs
    split at hs
    · exact absurd hs (by simp)
    · rename_i hne
      simp only [Outcome.ok.injEq] at hs; subst hs
      have hlt : s.cur < s.next := h.ref.held_lt (by simp [held])
      refine RInv.of _ _ (h.ref.inc hlt hne) ?_ ?_ ?_
      · intro x
        rw [List.count_cons]
        simp [count_held, User.held, List.count_cons]; omega
      · intro x hx
        simp [firm] at hx ⊢
        grind
      · exact knows_mono h (Nat.le_refl _) (fun w hw => .inl hw)

theorem tryAppend_err {cfg : Cfg} {s : State} {m : Bytes} {r : Option Nat} (h : RInv s) (e : Crash) :
    tryAppend cfg s m r ≠ .err e ∧ tryAppend cfg s m r ≠ .panic := by
  have hne := acquireError_no_err (r := r) (e := e) h.ref
  have href : ¬ (s.infos s.cur).refs + 1 = 1 := by
    have := h.ref.le s.cur
    rw [count_held] at this; simp at this; omega
  unfold tryAppend
  simp only [href]
  constructor <;> (repeat' split) <;> simp_all

theorem rinv_giveUp {s s' : State} {i : Nat} {w : Writer} {m : Bytes} {r : Option Nat} {H F : List Nat}
    (h : RefOK s.infos s.next s.pool H F) (hk : ∀ w ∈ s.writers, ∀ x ∈ w.knows, x < s.next)
    (hi : s.writers[i]? = some w) (hc : ∀ x, (held s).count x ≤ H.count x + w.held.count x) (hf : ∀ x ∈ firm s, x ∈ F)
    (hs : giveUp s i m r = .ok s') : RInv s' := by
  unfold giveUp at hs
  split at hs <;> try (simp at hs; done)
  rename_i s1 n h1
  simp only [Outcome.ok.injEq] at hs; subst hs
  obtain ⟨s0, _, ha, he, hr⟩ := acquireError_ok h h1
  have e := ha.eq
  have ecur : s1.cur = s.cur := by rw [he, e]
  have emain : s1.main = s.main := by rw [he, e]
  have eclo : s1.closer = s.closer := by rw [he, e]
  have ew : s1.writers = s.writers := by rw [he, e]
  have eu : s1.users = s.users := by rw [he, e]
  have hnx : s.next ≤ s1.next := by rw [he]; exact ha.le
  refine RInv.of _ _ hr ?_ ?_ ?_
  · intro x
    have h1 := hc x
    have h2 := count_flatMap_erase Writer.held x s.writers i w hi
    rw [List.count_cons]
    simp [count_held, ecur, emain, eclo, ew, eu, Writer.held] at *
    omega
  · intro x hx
    have := hf x
    simp [firm, ecur, emain, eclo, eu] at *
    grind
  · intro w' hw' x hx
    simp [ew] at hw'
    rcases hw' with h3 | h3
    · have := hk w' (mem_of_eraseIdx h3) x hx
      simp only; omega
    · subst h3; simp [Writer.knows] at hx

theorem giveUp_err {s : State} {i : Nat} {m : Bytes} {r : Option Nat} {H F : List Nat} {e : Crash}
    (h : RefOK s.infos s.next s.pool H F) : giveUp s i m r ≠ .err e ∧ giveUp s i m r ≠ .panic := by
  have hne := acquireError_no_err (r := r) (e := e) h
  unfold giveUp
  constructor <;> split <;> simp_all

theorem writers_knows {s : State} (h : RInv s) {i : Nat} {w : Writer} (hi : s.writers[i]? = some w) :
    ∀ x ∈ w.knows, x < s.next := h.knows w (List.mem_of_getElem? hi)

/-- Replacing writer `i`. -/
theorem knows_replace {s : State} (h : RInv s) {i n : Nat} {w : Writer} (hn : s.next ≤ n) (hw : ∀ x ∈ w.knows, x < s.next) :
    ∀ w' ∈ s.writers.eraseIdx i ++ [w], ∀ x ∈ w'.knows, x < n := by
  intro w' hw' x hx
  simp at hw'
  rcases hw' with h1 | h1
  · have := h.knows w' (mem_of_eraseIdx h1) x hx; omega
  · subst h1; have := hw x hx; omega

theorem begin_ok {s s' : State} {r : Option Nat} {k : State → Nat → State} {H F : List Nat}
    (h : RefOK s.infos s.next s.pool H F) (hs : begin s r k = .ok s') :
    ∃ s1 n, acquire s r = .ok (s1, n) ∧ Acquired s s1 n ∧ s' = k s1 n ∧
      RefOK s1.infos s1.next s1.pool (n :: H) (n :: F) := by
  unfold begin at hs
  split at hs <;> try (simp at hs; done)
  rename_i s1 n h1
  simp only [Outcome.ok.injEq] at hs; subst hs
  have := acquire_ok h h1
  exact ⟨s1, n, h1, this.1, rfl, this.2⟩

theorem begin_err {s : State} {r : Option Nat} {k : State → Nat → State} {H F : List Nat} {e : Crash}
    (h : RefOK s.infos s.next s.pool H F) : begin s r k ≠ .err e ∧ begin s r k ≠ .panic := by
  have h1 := acquire_no_err (r := r) (e := e) h
  have h2 := acquire_no_panic (s := s) (r := r)
  unfold begin
  constructor <;> split <;> simp_all

theorem rinv_retryState {s : State} (h : RInv s) (i : Nat) :
    RInv { s with writers := s.writers.eraseIdx i } := by
  refine RInv.of _ _ h.ref ?_ (fun x hx => hx) ?_
  · intro x
    by_cases hi : i < s.writers.length
    · have := count_flatMap_erase Writer.held x s.writers i s.writers[i] (by simp [hi])
      simp [count_held]; omega
    · simp [List.eraseIdx_of_length_le (Nat.le_of_not_lt hi), count_held]
  · exact knows_mono h (Nat.le_refl _) (fun w hw => .inl (mem_of_eraseIdx hw))

theorem rinv_step {cfg : Cfg} {s s' : State} {a : Act} (h : RInv s) (hs : step cfg s a = .ok s') : RInv s' := by
  cases a with
  | write m r => exact rinv_tryAppend h hs
  | retry i r =>
    simp only [step] at hs
    split at hs
    · exact rinv_tryAppend (rinv_retryState h i) hs
    · exact absurd hs (by simp)
  | refused r =>
    simp only [step] at hs
    split at hs
    · split at hs <;> try (simp at hs; done)
      rename_i s1 n h1
      simp only [Outcome.ok.injEq] at hs; subst hs
      obtain ⟨s0, _, ha, he, hr⟩ := acquireError_ok h.ref h1
      have e := ha.eq
      have ecur : s1.cur = s.cur := by rw [he, e]
      have emain : s1.main = s.main := by rw [he, e]
      have eclo : s1.closer = s.closer := by rw [he, e]
      have ew : s1.writers = s.writers := by rw [he, e]
      have eu : s1.users = s.users := by rw [he, e]
      have hnx : s.next ≤ s1.next := by rw [he]; exact ha.le
      refine RInv.of _ _ hr ?_ ?_ ?_
      · intro x
        rw [List.count_cons]
        simp [count_held, ecur, emain, eclo, ew, eu, User.held, List.count_cons]
        omega
      · intro x hx
        simp [firm, ecur, emain, eclo, eu] at hx ⊢
        grind
      · exact knows_mono h hnx (fun w hw => by simp [ew] at hw; exact .inl hw)
    · exact absurd hs (by simp)
  | inc i r =>
    simp only [step] at hs
    split at hs
    · rename_i x m hi
      have hx : x < s.next := writers_knows h hi x (by simp [Writer.knows])
      have hk : ∀ w ∈ (incRef s x).writers, ∀ y ∈ w.knows, y < (incRef s x).next := h.knows
      split at hs
      · exact rinv_giveUp (s := incRef s x) (h.ref.leak hx) hk hi
          (by intro y; simp [Writer.held]; exact Nat.le_refl _) (fun y hy => hy) hs
      · rename_i hne
        simp only [Outcome.ok.injEq] at hs; subst hs
        refine RInv.of _ _ (h.ref.inc hx hne) ?_ (fun y hy => hy)
          (knows_replace h (Nat.le_refl _) (by simp [Writer.knows]; exact hx))
        intro y
        have h2 := count_flatMap_erase Writer.held y s.writers i _ hi
        rw [List.count_cons]
        simp [count_held, Writer.held, incRef, List.count_cons] at *
        omega
    · rename_i x m hi
      have hx : x < s.next := writers_knows h hi x (by simp [Writer.knows])
      split at hs
      · simp only [Outcome.ok.injEq] at hs; subst hs
        refine RInv.of _ _ (h.ref.leak hx) ?_ (fun y hy => hy)
          (knows_replace h (Nat.le_refl _) (by simp [Writer.knows]; exact hx))
        intro y
        have h2 := count_flatMap_erase Writer.held y s.writers i _ hi
        simp [count_held, Writer.held, incRef] at *
        omega
      · rename_i hne
        simp only [Outcome.ok.injEq] at hs; subst hs
        refine RInv.of _ _ (h.ref.inc hx hne) ?_ (fun y hy => hy)
          (knows_replace h (Nat.le_refl _) (by simp [Writer.knows]; exact hx))
        intro y
        have h2 := count_flatMap_erase Writer.held y s.writers i _ hi
        rw [List.count_cons]
        simp [count_held, Writer.held, incRef, List.count_cons] at *
        omega
    · exact absurd hs (by simp)
  | poke i handoff r =>
    simp only [step] at hs
    split at hs
    · rename_i x m first hi
      have hx : x < s.next := writers_knows h hi x (by simp [Writer.knows])
      have hwait : RInv { s with writers := s.writers.eraseIdx i ++ [.waiting x m] } := by
        refine RInv.of _ _ h.ref ?_ (fun y hy => hy)
          (knows_replace h (Nat.le_refl _) (by simp [Writer.knows]; exact hx))
        intro y
        have h2 := count_flatMap_erase Writer.held y s.writers i _ hi
        simp [count_held, Writer.held] at *
        omega
      have hgive : ∀ s', giveUp s i m r = .ok s' → RInv s' := fun s' hs =>
        rinv_giveUp h.ref h.knows hi (by intro y; omega) (fun y hy => hy) hs
      split at hs
      · split at hs
        · exact hgive _ hs
        · simp only [Outcome.ok.injEq] at hs; subst hs; exact hwait
      · split at hs
        · split at hs
          · rename_i hidle
            split at hs
            · refine rinv_giveUp (s := { s with main := .got x }) h.ref h.knows hi ?_ ?_ hs
              · intro y
                simp [count_held, Main.held, Writer.held, hidle]; omega
              · intro y hy; simp [firm, Main.firm, hidle] at *; exact hy
            · simp only [Outcome.ok.injEq] at hs; subst hs
              refine RInv.of _ _ h.ref ?_ (fun y hy => by simp [firm, Main.firm, hidle] at *; exact hy)
                (knows_replace h (Nat.le_refl _) (by simp [Writer.knows]; exact hx))
              intro y
              have h2 := count_flatMap_erase Writer.held y s.writers i _ hi
              simp [count_held, Writer.held, Main.held, hidle] at *
              omega
          · exact absurd hs (by simp)
        · split at hs
          · exact hgive _ hs
          · simp only [Outcome.ok.injEq] at hs; subst hs; exact hwait
    · exact absurd hs (by simp)
  | wake i =>
    simp only [step] at hs
    split at hs
    · rename_i x m hi
      split at hs
      · simp only [Outcome.ok.injEq] at hs; subst hs
        refine RInv.of _ _ h.ref ?_ (fun y hy => hy)
          (knows_replace h (Nat.le_refl _) (by simp [Writer.knows]))
        intro y
        have h2 := count_flatMap_erase Writer.held y s.writers i _ hi
        simp [count_held, Writer.held] at *
        omega
      · exact absurd hs (by simp)
    · exact absurd hs (by simp)
  | tick i =>
    simp only [step] at hs
    split at hs
    · rename_i x m hi
      split at hs
      · exact absurd hs (by simp)
      · simp only [Outcome.ok.injEq] at hs; subst hs
        refine RInv.of _ _ h.ref ?_ (fun y hy => hy)
          (knows_replace h (Nat.le_refl _) (by
            simp [Writer.knows]; exact writers_knows h hi x (by simp [Writer.knows])))
        intro y
        have h2 := count_flatMap_erase Writer.held y s.writers i _ hi
        simp [count_held, Writer.held] at *
        omega
    · exact absurd hs (by simp)
  | sendNow i =>
    simp only [step] at hs
    split at hs
    · rename_i u hi
      split at hs
      · exact absurd hs (by simp)
      split at hs
      · exact absurd hs (by simp)
      · rename_i hsn hne
        simp only [Outcome.ok.injEq] at hs; subst hs
        have hmem : u ∈ s.users := List.mem_of_getElem? hi
        have hx : u.info < s.next := h.ref.held_lt (firm_sub_held s _ (by
          simp only [firm, List.mem_cons, List.mem_append, List.mem_map]; exact .inr (.inr ⟨u, hmem, rfl⟩)))
        refine RInv.of _ _ (h.ref.inc hx hne) ?_ ?_ h.knows
        · intro y
          have h2 := count_flatMap_erase User.held y s.users i _ hi
          rw [List.count_cons]
          simp [count_held, User.held, hsn, incRef, List.count_cons] at *
          omega
        · intro y hy
          have := fun z (hz : z ∈ s.users.eraseIdx i) => mem_of_eraseIdx hz
          simp [firm, incRef] at *
          grind
    · exact absurd hs (by simp)
  | sendNowChan i =>
    simp only [step] at hs
    split at hs
    · rename_i u hi
      split at hs
      · rename_i hsn
        split at hs
        · exact absurd hs (by simp)
        split at hs
        · rename_i hidle
          simp only [Outcome.ok.injEq] at hs; subst hs
          have hmem : u ∈ s.users := List.mem_of_getElem? hi
          refine RInv.of _ _ h.ref ?_ ?_ h.knows
          · intro y
            have h2 := count_flatMap_erase User.held y s.users i _ hi
            simp [count_held, User.held, hsn, Main.held, hidle, List.count_cons] at *
            omega
          · intro y hy
            have := fun z (hz : z ∈ s.users.eraseIdx i) => mem_of_eraseIdx hz
            simp [firm, Main.firm, hidle] at *
            grind
        · exact absurd hs (by simp)
      · exact absurd hs (by simp)
    · exact absurd hs (by simp)
  | userRelease i =>
    simp only [step] at hs
    split at hs
    · rename_i u hi
      split at hs
      · exact absurd hs (by simp)
      rename_i hsn
      split at hs
      · let s0 : State := { s with users := s.users.eraseIdx i
                                   rets := s.rets ++ [⟨u.idx, (s.infos u.info).err, (s.infos u.info).closed⟩] }
        have h0 : RefOK s0.infos s0.next s0.pool (u.info :: held s0) (firm s) := by
          refine h.ref.change ?_ (fun y hy => hy) ?_
          · intro y
            have h2 := count_flatMap_erase User.held y s.users i _ hi
            rw [List.count_cons]
            simp [count_held, User.held, hsn, s0, List.count_cons] at *
            omega
          · intro y hy
            have hy' := firm_sub_held s y hy
            rw [← List.count_pos_iff] at hy' ⊢
            have h2 := count_flatMap_erase User.held y s.users i _ hi
            rw [List.count_cons]
            simp [count_held, User.held, hsn, s0, List.count_cons] at *
            omega
        have hr := release_ok (F' := firm s0) h0 (by
          intro y hy
          have := fun z (hz : z ∈ s.users.eraseIdx i) => mem_of_eraseIdx hz
          simp [firm, s0] at *
          grind) (firm_sub_held s0) hs
        have e := hr.1.eq
        have e1 : held s' = held s0 := by rw [e]; rfl
        have e2 : firm s' = firm s0 := by rw [e]; rfl
        exact ⟨by rw [e1, e2]; exact hr.2, by rw [e]; exact h.knows⟩
      · exact absurd hs (by simp)
    · exact absurd hs (by simp)
  | connect r =>
    simp only [step] at hs
    split at hs
    · rename_i hm
      obtain ⟨s1, n, _, ha, rfl, hr⟩ := begin_ok h.ref hs
      have e := ha.eq
      refine RInv.of _ _ hr ?_ ?_ ?_
      · intro y
        rw [List.count_cons, count_held, count_held, e]
        simp [Main.held, Flush.held, hm, List.count_cons]; omega
      · intro y hy
        rw [e] at hy
        simp [firm, Main.firm, hm, Flush.held] at *
        grind
      · exact knows_mono h ha.le (fun w hw => .inl (by rw [e] at hw; exact hw))
    · exact absurd hs (by simp)
  | timer r =>
    simp only [step] at hs
    split at hs
    · rename_i hm
      obtain ⟨s1, n, _, ha, rfl, hr⟩ := begin_ok h.ref hs
      have e := ha.eq
      refine RInv.of _ _ hr ?_ ?_ ?_
      · intro y
        rw [List.count_cons, count_held, count_held, e]
        simp [Main.held, Flush.held, hm, List.count_cons]; omega
      · intro y hy
        rw [e] at hy
        simp [firm, Main.firm, hm, Flush.held] at *
        grind
      · exact knows_mono h ha.le (fun w hw => .inl (by rw [e] at hw; exact hw))
    · exact absurd hs (by simp)
  | handle r =>
    simp only [step] at hs
    split at hs
    · rename_i x hm
      split at hs
      · simp only [Outcome.ok.injEq] at hs; subst hs
        refine RInv.of _ _ h.ref ?_ ?_ h.knows
        · intro y; simp [count_held, hm, Main.held]
        · intro y hy; simp [firm, Main.firm, hm] at *; exact hy
      · obtain ⟨s1, n, _, ha, rfl, hr⟩ := begin_ok h.ref hs
        have e := ha.eq
        refine RInv.of _ _ hr ?_ ?_ ?_
        · intro y
          rw [List.count_cons, count_held, count_held, e]
          simp [Main.held, Flush.held, hm, List.count_cons]; omega
        · intro y hy
          rw [e] at hy
          simp [firm, Main.firm, hm, Flush.held] at *
          grind
        · exact knows_mono h ha.le (fun w hw => .inl (by rw [e] at hw; exact hw))
    · exact absurd hs (by simp)
  | mainFlush a r =>
    simp only [step] at hs
    split at hs
    · rename_i f hm
      let R := s.closer.held ++ s.writers.flatMap Writer.held ++ s.users.flatMap User.held
      let FR := s.closer.held ++ s.users.map User.info
      have hsub : ∀ x ∈ FR, x ∈ R := by
        intro x hx
        have := firm_sub_held_users s.users x
        simp only [FR, R, List.mem_append] at *; grind
      have hin : RefOK s.infos s.next s.pool (s.cur :: (f.held ++ R)) (s.cur :: (f.held ++ FR)) := by
        refine h.ref.change ?_ ?_ ?_
        · intro x; simp [count_held, hm, Main.held, R, List.count_cons, List.count_append]; omega
        · intro x hx; simp [firm, Main.firm, hm, FR] at *; grind
        · intro x hx; simp only [List.mem_cons, List.mem_append] at *; grind
      split at hs <;> try (simp at hs; done)
      · rename_i s1 f1 hf
        simp only [Outcome.ok.injEq] at hs; subst hs
        have hr := flushStep_ref hsub hin hf
        have e := flushStep_frame hf
        refine RInv.of _ _ hr ?_ ?_ ?_
        · intro x
          have : (held { s1 with main := .connecting f1 }).count x =
              (held { s with main := .connecting f1, cur := s1.cur }).count x := by rw [e]; rfl
          rw [this]
          simp [count_held, Main.held, FRes.held, R, List.count_cons, List.count_append]; omega
        · intro x hx
          have : firm { s1 with main := .connecting f1 } = firm { s with main := .connecting f1, cur := s1.cur } := by
            rw [e]; rfl
          rw [this] at hx
          simp [firm, Main.firm, FRes.held, FR] at *; grind
        · rw [e]; exact h.knows
      · rename_i s1 id hf
        simp only [Outcome.ok.injEq] at hs; subst hs
        have hr := flushStep_ref hsub hin hf
        have e := flushStep_frame hf
        refine RInv.of _ _ hr ?_ ?_ ?_
        · intro x
          have : (held { s1 with main := .idle }).count x =
              (held { s with main := .idle, cur := s1.cur }).count x := by rw [e]; rfl
          rw [this]
          simp [count_held, Main.held, FRes.held, R, List.count_cons, List.count_append]; omega
        · intro x hx
          have : firm { s1 with main := .idle } = firm { s with main := .idle, cur := s1.cur } := by
            rw [e]; rfl
          rw [this] at hx
          simp [firm, Main.firm, FRes.held, FR] at *; grind
        · rw [e]; exact h.knows
      · rename_i s1 id hf
        have hr := flushStep_ref hsub hin hf
        have e := flushStep_frame hf
        obtain ⟨s2, n, _, ha, rfl, hr2⟩ := begin_ok (s := { s1 with main := .idle }) hr hs
        have e2 := ha.eq
        refine RInv.of _ _ hr2 ?_ ?_ ?_
        · intro x
          have : (held { s2 with main := .connecting (.acquired n) }).count x =
              (held { s with main := .connecting (.acquired n), cur := s1.cur }).count x := by rw [e2, e]; rfl
          rw [this]
          simp [count_held, Main.held, FRes.held, Flush.held, R, List.count_cons, List.count_append]; omega
        · intro x hx
          have : firm { s2 with main := .connecting (.acquired n) } =
              firm { s with main := .connecting (.acquired n), cur := s1.cur } := by rw [e2, e]; rfl
          rw [this] at hx
          simp [firm, Main.firm, FRes.held, Flush.held, FR] at *; grind
        · have hle := ha.le
          have h1 : s1.next = s.next := by rw [e]
          have hw : s2.writers = s.writers := by rw [e2, e]
          exact knows_mono h (by simp only [h1] at hle; exact hle) (fun w hw' => .inl (by simp only [hw] at hw'; exact hw'))
    · rename_i d f hm
      let R := d.toList ++ (s.closer.held ++ s.writers.flatMap Writer.held ++ s.users.flatMap User.held)
      let FR := s.closer.held ++ s.users.map User.info
      have hsub : ∀ x ∈ FR, x ∈ R := by
        intro x hx
        have := firm_sub_held_users s.users x
        simp only [FR, R, List.mem_append] at *; grind
      have hin : RefOK s.infos s.next s.pool (s.cur :: (f.held ++ R)) (s.cur :: (f.held ++ FR)) := by
        refine h.ref.change ?_ ?_ ?_
        · intro x; simp [count_held, hm, Main.held, R, List.count_cons, List.count_append]; omega
        · intro x hx; simp [firm, Main.firm, hm, FR] at *; grind
        · intro x hx; simp only [List.mem_cons, List.mem_append] at *; grind
      split at hs <;> try (simp at hs; done)
      · rename_i s1 f1 hf
        simp only [Outcome.ok.injEq] at hs; subst hs
        have hr := flushStep_ref hsub hin hf
        have e := flushStep_frame hf
        refine RInv.of _ _ hr ?_ ?_ ?_
        · intro x
          have : (held { s1 with main := .flush d f1 }).count x =
              (held { s with main := .flush d f1, cur := s1.cur }).count x := by rw [e]; rfl
          rw [this]
          simp [count_held, Main.held, FRes.held, R, List.count_cons, List.count_append]; omega
        · intro x hx
          have : firm { s1 with main := .flush d f1 } = firm { s with main := .flush d f1, cur := s1.cur } := by
            rw [e]; rfl
          rw [this] at hx
          simp [firm, Main.firm, FRes.held, FR] at *; grind
        · rw [e]; exact h.knows
      · rename_i s1 em id hf
        simp only [Outcome.ok.injEq] at hs; subst hs
        have hr := flushStep_ref hsub hin hf
        have e := flushStep_frame hf
        generalize hmm : Main.after d = mm
        have hmh : mm.held = d.toList := by subst hmm; cases d <;> rfl
        have hmf : mm.firm = [] := by subst hmm; cases d <;> rfl
        refine RInv.of _ _ hr ?_ ?_ ?_
        · intro x
          have : (held { s1 with last := id, main := mm }).count x =
              (held { s with main := mm, cur := s1.cur }).count x := by rw [e]; rfl
          rw [this]
          simp [count_held, hmh, FRes.held, R, List.count_cons, List.count_append]; omega
        · intro x hx
          have : firm { s1 with last := id, main := mm } = firm { s with main := mm, cur := s1.cur } := by
            rw [e]; rfl
          rw [this] at hx
          simp [firm, hmf, FRes.held, FR] at *; grind
        · rw [e]; exact h.knows
    · exact absurd hs (by simp)
  | mainRelease =>
    simp only [step] at hs
    split at hs
    · rename_i x hm
      let s0 : State := { s with main := .idle }
      have h0 : RefOK s0.infos s0.next s0.pool (x :: held s0) (firm s0) := by
        refine h.ref.change ?_ ?_ ?_
        · intro y; rw [List.count_cons]; simp [count_held, s0, hm, Main.held, List.count_cons]; omega
        · intro y hy; simp [firm, Main.firm, s0, hm] at *; exact hy
        · intro y hy; exact List.mem_cons_of_mem _ (firm_sub_held s0 y hy)
      have hr := release_ok (F' := firm s0) h0 (fun y hy => hy) (firm_sub_held s0) hs
      have e := hr.1.eq
      have e1 : held s' = held s0 := by rw [e]; rfl
      have e2 : firm s' = firm s0 := by rw [e]; rfl
      exact ⟨by rw [e1, e2]; exact hr.2, by rw [e]; exact h.knows⟩
    · exact absurd hs (by simp)
  | mainExit =>
    simp only [step] at hs
    split at hs
    · rename_i hm
      simp only [Outcome.ok.injEq] at hs; subst hs
      refine RInv.of _ _ h.ref ?_ ?_ h.knows
      · intro y; simp [count_held, hm.1, Main.held]
      · intro y hy; simp [firm, Main.firm, hm.1] at *; exact hy
    · exact absurd hs (by simp)
  | close r =>
    simp only [step] at hs
    split at hs
    · exact absurd hs (by simp)
    · obtain ⟨s1, n, _, ha, rfl, hr⟩ := begin_ok (s := { s with done := true }) h.ref hs
      have e := ha.eq
      refine RInv.of _ _ hr ?_ ?_ ?_
      · intro y
        rw [List.count_cons, count_held, count_held, e]
        simp [Closer.held, Flush.held, List.count_cons]; omega
      · intro y hy
        rw [e] at hy
        simp [firm, Closer.held, Flush.held] at *
        grind
      · exact knows_mono h ha.le (fun w hw => .inl (by rw [e] at hw; exact hw))
  | closerFlush a r =>
    simp only [step] at hs
    split at hs
    · rename_i f hm
      let R := s.main.held ++ s.writers.flatMap Writer.held ++ s.users.flatMap User.held
      let FR := s.main.firm ++ s.users.map User.info
      have hsub : ∀ x ∈ FR, x ∈ R := by
        intro x hx
        have := firm_sub_held_users s.users x
        have := main_firm_held s.main x
        simp only [FR, R, List.mem_append] at *; grind
      have hin : RefOK s.infos s.next s.pool (s.cur :: (f.held ++ R)) (s.cur :: (f.held ++ FR)) := by
        refine h.ref.change ?_ ?_ ?_
        · intro x; simp [count_held, hm, Closer.held, R, List.count_cons, List.count_append]; omega
        · intro x hx; simp [firm, Closer.held, hm, FR] at *; grind
        · intro x hx; simp only [List.mem_cons, List.mem_append] at *; grind
      split at hs <;> try (simp at hs; done)
      · rename_i s1 f1 hf
        simp only [Outcome.ok.injEq] at hs; subst hs
        have hr := flushStep_ref hsub hin hf
        have e := flushStep_frame hf
        refine RInv.of _ _ hr ?_ ?_ ?_
        · intro x
          have : (held { s1 with closer := .flush f1 }).count x =
              (held { s with closer := .flush f1, cur := s1.cur }).count x := by rw [e]; rfl
          rw [this]
          simp [count_held, Closer.held, FRes.held, R, List.count_cons, List.count_append]; omega
        · intro x hx
          have : firm { s1 with closer := .flush f1 } = firm { s with closer := .flush f1, cur := s1.cur } := by
            rw [e]; rfl
          rw [this] at hx
          simp [firm, Closer.held, FRes.held, FR] at *; grind
        · rw [e]; exact h.knows
      · rename_i s1 id hf
        simp only [Outcome.ok.injEq] at hs; subst hs
        have hr := flushStep_ref hsub hin hf
        have e := flushStep_frame hf
        refine RInv.of _ _ hr ?_ ?_ ?_
        · intro x
          have : (held { s1 with closer := .over, ctx := true }).count x =
              (held { s with closer := .over, ctx := true, cur := s1.cur }).count x := by rw [e]; rfl
          rw [this]
          simp [count_held, Closer.held, FRes.held, R, List.count_cons, List.count_append]; omega
        · intro x hx
          have : firm { s1 with closer := .over, ctx := true } = firm { s with closer := .over, ctx := true, cur := s1.cur } := by
            rw [e]; rfl
          rw [this] at hx
          simp [firm, Closer.held, FRes.held, FR] at *; grind
        · rw [e]; exact h.knows
      · rename_i s1 id hf
        have hr := flushStep_ref hsub hin hf
        have e := flushStep_frame hf
        obtain ⟨s2, n, _, ha, rfl, hr2⟩ := begin_ok (s := { s1 with closer := .over }) hr hs
        have e2 := ha.eq
        refine RInv.of _ _ hr2 ?_ ?_ ?_
        · intro x
          have : (held { s2 with closer := .flush (.acquired n) }).count x =
              (held { s with closer := .flush (.acquired n), cur := s1.cur }).count x := by rw [e2, e]; rfl
          rw [this]
          simp [count_held, Closer.held, FRes.held, Flush.held, R, List.count_cons, List.count_append]; omega
        · intro x hx
          have : firm { s2 with closer := .flush (.acquired n) } =
              firm { s with closer := .flush (.acquired n), cur := s1.cur } := by rw [e2, e]; rfl
          rw [this] at hx
          simp [firm, Closer.held, FRes.held, Flush.held, FR] at *; grind
        · have hle := ha.le
          have h1 : s1.next = s.next := by rw [e]
          have hw : s2.writers = s.writers := by rw [e2, e]
          exact knows_mono h (by simp only [h1] at hle; exact hle) (fun w hw' => .inl (by simp only [hw] at hw'; exact hw'))
    · exact absurd hs (by simp)
  | cancel =>
    simp only [step, Outcome.ok.injEq] at hs; subst hs
    exact ⟨h.ref, h.knows⟩
  | setDone =>
    simp only [step, Outcome.ok.injEq] at hs; subst hs
    exact ⟨h.ref, h.knows⟩
  | fragment r =>
    simp only [step] at hs
    split at hs
    · split at hs <;> try (simp at hs; done)
      rename_i s1 n h1
      simp only [Outcome.ok.injEq] at hs; subst hs
      obtain ⟨ha, hr⟩ := acquire_ok h.ref h1
      have e := ha.eq
      refine RInv.of _ _ hr ?_ ?_ ?_
      · intro x
        rw [List.count_cons, count_held, count_held, e]
        simp [User.held, List.count_cons]
        omega
      · intro x hx
        rw [e] at hx
        simp [firm] at hx ⊢
        grind
      · exact knows_mono h ha.le (fun w hw => by rw [e] at hw; exact .inl hw)
    · exact absurd hs (by simp)
  | fragmentDone i er =>
    simp only [step] at hs
    split at hs
    · split at hs
      · exact absurd hs (by simp)
      · simp only [Outcome.ok.injEq] at hs; subst hs
        exact ⟨h.ref.update rfl rfl, h.knows⟩
    · exact absurd hs (by simp)
  | gc x =>
    simp only [step] at hs
    split at hs
    · simp only [Outcome.ok.injEq] at hs; subst hs
      exact ⟨{ h.ref with
                poolFree := fun y hy => h.ref.poolFree y (List.mem_of_mem_erase hy)
                poolLt := fun y hy => h.ref.poolLt y (List.mem_of_mem_erase hy)
                poolNodup := h.ref.poolNodup.erase x }, h.knows⟩
    · exact absurd hs (by simp)

end Verif.DelayedSend
