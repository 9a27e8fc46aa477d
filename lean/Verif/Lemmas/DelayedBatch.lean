import Verif.Lemmas.DelayedSend
/-! Packets of the delayed sending (helpers): which `SendInfo` reports about which messages. -/
namespace Verif.DelayedSend

/-- The messages of packet `b`. -/
def msgsOf (acc : List (Nat × Bytes)) (b : Nat) : List Bytes := (acc.filter (fun p => p.1 = b)).map (·.2)

/-- `SendInfo`s whose channel this flush has to keep open. -/
def Flush.roles : Flush → List Nat
  | .acquired n => [n]
  | .swapped x _ => [x]
  | .checked x _ => [x]
  | .wrote x _ _ => [x]
  | .ended _ _ => []

/-- The swapped `SendInfo`, not closed yet. -/
def Flush.pend : Flush → List Nat
  | .swapped x _ => [x]
  | .checked x _ => [x]
  | .wrote x _ _ => [x]
  | _ => []

/-- The swapped `SendInfo`, not sent yet. -/
def Flush.unsent : Flush → List Nat
  | .swapped x _ => [x]
  | .checked x _ => [x]
  | _ => []

def FlushOK (s : State) : Flush → Prop
  | .acquired n => (s.infos n).closed = false
  | .swapped x msgs => (s.infos x).closed = false ∧ (s.infos x).batch < s.swaps ∧
      msgs = msgsOf s.accepted (s.infos x).batch ∧ s.status (s.infos x).batch = none
  | .checked x msgs => (s.infos x).closed = false ∧ (s.infos x).batch < s.swaps ∧
      msgs = msgsOf s.accepted (s.infos x).batch ∧ s.status (s.infos x).batch = none ∧ msgs ≠ []
  | .wrote x msgs ok => (s.infos x).closed = false ∧ (s.infos x).batch < s.swaps ∧
      msgs = msgsOf s.accepted (s.infos x).batch ∧ s.status (s.infos x).batch = some ok ∧ (s.infos x).err = !ok
  | .ended x _ => (s.infos x).closed = true

structure Core (limit : Nat) (s : State) (fl : List Flush) : Prop where
  flushOK : ∀ f ∈ fl, FlushOK s f
  roles : (s.cur :: fl.flatMap Flush.roles).Nodup
  pend : ((fl.flatMap Flush.pend).map fun x => (s.infos x).batch).Nodup
  acqFree : ∀ n, Flush.acquired n ∈ fl → ∀ u ∈ s.users, u.info ≠ n
  curOpen : (s.infos s.cur).closed = false
  curBatch : (s.infos s.cur).batch = s.swaps
  accLe : ∀ p ∈ s.accepted, p.1 ≤ s.swaps
  accSorted : s.accepted.Pairwise (fun p q => p.1 ≤ q.1)
  bufEq : s.buf = msgsOf s.accepted s.swaps
  statusLt : ∀ b, s.status b ≠ none → b < s.swaps
  users : ∀ u ∈ s.users, ∀ k, u.idx = some k → ∃ m, s.accepted[k]? = some ((s.infos u.info).batch, m) ∧
    ((s.infos u.info).closed = true → s.status (s.infos u.info).batch = some (!(s.infos u.info).err))
  wireStatus : ∀ p ∈ s.wire, s.status p.1 = some true ∧ p.2 = msgsOf s.accepted p.1 ∧ p.2 ≠ []
  statusWire : ∀ b, s.status b = some true → b ∈ s.wire.map (·.1)
  size : ∀ b, msgsOf s.accepted b = [] ∨ 44 + bufSize (msgsOf s.accepted b) ≤ limit
  rets : ∀ r ∈ s.rets, r.viaDone = true → ∀ k, r.idx = some k →
    ∃ b m, s.accepted[k]? = some (b, m) ∧ s.status b = some (!r.err)
  waits : ∀ u ∈ s.users, u.idx ≠ none → (s.infos u.info).closed = false → u.info = s.cur ∨ ∃ f ∈ fl, u.info ∈ f.pend

def Main.flush? : Main → List Flush
  | .connecting f => [f]
  | .flush _ f => [f]
  | _ => []

def Closer.flush? : Closer → List Flush
  | .flush f => [f]
  | _ => []

structure DInv (limit : Nat) (s : State) : Prop where
  core : Core limit s (s.main.flush? ++ s.closer.flush?)
  frags : s.frags = []
  wireSorted : s.wire.Pairwise (fun p q => p.1 < q.1)
  wireMain : ∀ f ∈ s.main.flush?, ∀ x ∈ f.unsent, ∀ p ∈ s.wire, p.1 < (s.infos x).batch
  closerDone : s.closer ≠ .none → s.done = true
  closerChecked : ∀ f ∈ s.closer.flush?, ∀ x msgs, f ≠ .checked x msgs

theorem Core.perm {limit s fl fl'} (h : Core limit s fl) (hp : fl.Perm fl') : Core limit s fl' :=
  { h with
    flushOK := fun f hf => h.flushOK f (hp.mem_iff.2 hf)
    roles := (List.Perm.nodup_iff (List.Perm.cons _ (hp.flatMap_right _))).1 h.roles
    pend := (List.Perm.nodup_iff ((hp.flatMap_right _).map _)).1 h.pend
    acqFree := fun n hn => h.acqFree n (hp.mem_iff.2 hn)
    waits := fun u hu hk hc => (h.waits u hu hk hc).imp id fun ⟨f, hf, hx⟩ => ⟨f, hp.mem_iff.1 hf, hx⟩ }

/-- Dropping a finished flush. -/
theorem Core.tail {limit s f fl} (h : Core limit s (f :: fl)) (hp : f.pend = []) : Core limit s fl :=
  { h with
    flushOK := fun g hg => h.flushOK g (List.mem_cons_of_mem _ hg)
    roles := by
      have := h.roles
      simp only [List.flatMap_cons] at this
      exact List.Nodup.sublist (List.Sublist.cons_cons _ (List.sublist_append_right _ _)) this
    pend := by
      have := h.pend
      simp only [List.flatMap_cons, List.map_append] at this
      exact List.Nodup.sublist (List.sublist_append_right _ _) this
    acqFree := fun n hn => h.acqFree n (List.mem_cons_of_mem _ hn)
    waits := fun u hu hk hc => (h.waits u hu hk hc).imp id fun ⟨g, hg, hx⟩ => by
      rcases List.mem_cons.1 hg with e | e
      · subst e; rw [hp] at hx; cases hx
      · exact ⟨g, e, hx⟩ }

/-- The `SendInfo`s the invariant is about. -/
def relevant (s : State) (fl : List Flush) : List Nat := s.cur :: (fl.flatMap Flush.held ++ s.users.map User.info)

theorem pend_held (f : Flush) : ∀ x ∈ f.pend, x ∈ f.held := by cases f <;> simp [Flush.pend, Flush.held]
theorem roles_held (f : Flush) : ∀ x ∈ f.roles, x ∈ f.held := by cases f <;> simp [Flush.roles, Flush.held]
theorem unsent_pend (f : Flush) : ∀ x ∈ f.unsent, x ∈ f.pend := by cases f <;> simp [Flush.pend, Flush.unsent]

theorem unsent_roles (f : Flush) : ∀ x ∈ f.unsent, x ∈ f.roles := by cases f <;> simp [Flush.roles, Flush.unsent]

theorem flushOK_heap {s s' : State} {f : Flush}
    (hi : ∀ x ∈ f.held, (s'.infos x).closed = (s.infos x).closed ∧ (s'.infos x).err = (s.infos x).err ∧
      (s'.infos x).batch = (s.infos x).batch)
    (h1 : s'.swaps = s.swaps) (h2 : s'.accepted = s.accepted) (h3 : s'.status = s.status)
    (h : FlushOK s f) : FlushOK s' f := by
  cases f <;> simp only [FlushOK, Flush.held, List.mem_singleton, forall_eq] at * <;>
    (rw [hi.1]; try rw [hi.2.2]; try rw [hi.2.1]) <;> (try rw [h1, h2, h3]) <;> exact h

/-- Changes of the heap that leave the relevant `SendInfo`s alone, and of control fields. -/
theorem Core.heap {limit s s' fl} (h : Core limit s fl)
    (hi : ∀ x ∈ relevant s fl, (s'.infos x).closed = (s.infos x).closed ∧ (s'.infos x).err = (s.infos x).err ∧
      (s'.infos x).batch = (s.infos x).batch)
    (hcur : s'.cur = s.cur) (hbuf : s'.buf = s.buf) (husers : s'.users = s.users)
    (hacc : s'.accepted = s.accepted) (hsw : s'.swaps = s.swaps) (hst : s'.status = s.status)
    (hw : s'.wire = s.wire) (hr : s'.rets = s.rets) : Core limit s' fl := by
  have hc := hi s.cur (by simp [relevant])
  have hu : ∀ u ∈ s.users, _ := fun u hu => hi u.info (by simp [relevant]; exact .inr (.inr ⟨u, hu, rfl⟩))
  have hfl : ∀ f ∈ fl, ∀ x ∈ f.held, _ := fun f hf x hx =>
    hi x (by simp only [relevant, List.mem_cons, List.mem_append, List.mem_flatMap]; exact .inr (.inl ⟨f, hf, hx⟩))
  exact
  { flushOK := fun f hf => flushOK_heap (hfl f hf) hsw hacc hst (h.flushOK f hf)
    roles := by rw [hcur]; exact h.roles
    pend := by
      have : (fl.flatMap Flush.pend).map (fun x => (s'.infos x).batch) =
          (fl.flatMap Flush.pend).map (fun x => (s.infos x).batch) := by
        apply List.map_congr_left
        intro x hx
        obtain ⟨f, hf, hx⟩ := List.mem_flatMap.1 hx
        exact (hfl f hf x (pend_held f x hx)).2.2
      rw [this]; exact h.pend
    acqFree := by rw [husers]; exact h.acqFree
    curOpen := by rw [hcur, hc.1]; exact h.curOpen
    curBatch := by rw [hcur, hc.2.2, hsw]; exact h.curBatch
    accLe := by rw [hacc, hsw]; exact h.accLe
    accSorted := by rw [hacc]; exact h.accSorted
    bufEq := by rw [hbuf, hacc, hsw]; exact h.bufEq
    statusLt := by rw [hst, hsw]; exact h.statusLt
    users := fun u hu' k hk => by
      rw [husers] at hu'
      have := hu u hu'
      rw [this.1, this.2.1, this.2.2, hacc, hst]
      exact h.users u hu' k hk
    wireStatus := by rw [hw, hst, hacc]; exact h.wireStatus
    statusWire := by rw [hw, hst]; exact h.statusWire
    size := by rw [hacc]; exact h.size
    rets := by rw [hr, hacc, hst]; exact h.rets
    waits := fun u hu' hk ho => by
      rw [husers] at hu'
      rw [(hu u hu').1] at ho
      rw [hcur]
      exact h.waits u hu' hk ho }

/-- Fewer, or harmless new, owners. -/
theorem Core.setUsers {limit s fl} (h : Core limit s fl) (us : List User)
    (hu : ∀ u ∈ us, (∃ u' ∈ s.users, u'.info = u.info ∧ u'.idx = u.idx) ∨
      (u.idx = none ∧ ∀ n, Flush.acquired n ∈ fl → u.info ≠ n)) :
    Core limit { s with users := us } fl :=
  { h with
    flushOK := fun f hf => flushOK_heap (fun _ _ => ⟨rfl, rfl, rfl⟩) rfl rfl rfl (h.flushOK f hf)
    acqFree := fun n hn u hum => by
      rcases hu u hum with ⟨u', hu', e, _⟩ | ⟨_, h2⟩
      · rw [← e]; exact h.acqFree n hn u' hu'
      · exact h2 n hn
    users := fun u hum k hk => by
      rcases hu u hum with ⟨u', hu', e, e2⟩ | ⟨h1, _⟩
      · rw [← e2] at hk
        simp only [← e]
        exact h.users u' hu' k hk
      · rw [h1] at hk; exact absurd hk (by simp)
    waits := fun u hum hk hc => by
      rcases hu u hum with ⟨u', hu', e, e2⟩ | ⟨h1, _⟩
      · rw [← e2] at hk
        simp only [← e] at hc ⊢
        exact h.waits u' hu' hk hc
      · exact absurd h1 hk }

theorem Core.setRets {limit s fl} (h : Core limit s fl) (rs : List Ret)
    (hr : ∀ r ∈ rs, r.viaDone = true → ∀ k, r.idx = some k →
      ∃ b m, s.accepted[k]? = some (b, m) ∧ s.status b = some (!r.err)) :
    Core limit { s with rets := rs } fl :=
  { h with
    flushOK := fun f hf => flushOK_heap (fun _ _ => ⟨rfl, rfl, rfl⟩) rfl rfl rfl (h.flushOK f hf)
    rets := hr }

/-- A flush begins with a fresh `SendInfo`. -/
theorem Core.begin {limit s fl n} (h : Core limit s fl) (ho : (s.infos n).closed = false)
    (hn : n ∉ relevant s fl) : Core limit s (.acquired n :: fl) :=
  { h with
    flushOK := fun f hf => by
      rcases List.mem_cons.1 hf with e | e
      · subst e; exact ho
      · exact h.flushOK f e
    roles := by
      have := h.roles
      simp only [List.nodup_cons, List.flatMap_cons, Flush.roles, List.cons_append, List.nil_append, List.mem_cons] at *
      refine ⟨fun hh => ?_, fun hh => hn ?_, this.2⟩
      · rcases hh with e | e
        · exact hn (by simp [relevant, ← e])
        · exact this.1 e
      · obtain ⟨f, hf, hx⟩ := List.mem_flatMap.1 hh
        simp only [relevant, List.mem_cons, List.mem_append, List.mem_flatMap]
        exact .inr (.inl ⟨f, hf, roles_held f n hx⟩)
    pend := by simpa [Flush.pend] using h.pend
    acqFree := fun m hm u hu e => by
      rcases List.mem_cons.1 hm with h1 | h1
      · simp at h1; subst h1
        exact hn (by simp only [relevant, List.mem_cons, List.mem_append, List.mem_map]; exact .inr (.inr ⟨u, hu, e⟩))
      · exact h.acqFree m h1 u hu e
    waits := fun u hu hk hc => (h.waits u hu hk hc).imp id fun ⟨f, hf, hx⟩ => ⟨f, List.mem_cons_of_mem _ hf, hx⟩ }

theorem msgsOf_append (acc : List (Nat × Bytes)) (b b' : Nat) (m : Bytes) :
    msgsOf (acc ++ [(b', m)]) b = if b' = b then msgsOf acc b ++ [m] else msgsOf acc b := by
  by_cases e : b' = b <;> simp [msgsOf, List.filter_append, e]

theorem bufSize_append (l : List Bytes) (m : Bytes) : bufSize (l ++ [m]) = bufSize l + m.length := by
  simp [bufSize]

/-- A message is accepted. -/
theorem Core.accept {limit s fl} (h : Core limit s fl) (m : Bytes) (hfit : 44 + bufSize s.buf + m.length ≤ limit)
    (hcur : ∀ n, Flush.acquired n ∈ fl → s.cur ≠ n) :
    Core limit { s with buf := s.buf ++ [m], users := s.users ++ [⟨s.cur, some s.accepted.length, false⟩]
                        accepted := s.accepted ++ [(s.swaps, m)] } fl := by
  have hacc : ∀ (k : Nat) (p : Nat × Bytes), s.accepted[k]? = some p → (s.accepted ++ [(s.swaps, m)])[k]? = some p := by
    intro k p hk
    rw [List.getElem?_append_left (by
      by_cases hlt : k < s.accepted.length
      · exact hlt
      · rw [List.getElem?_eq_none (by omega)] at hk; simp at hk)]
    exact hk
  have hold : ∀ b, b < s.swaps → msgsOf (s.accepted ++ [(s.swaps, m)]) b = msgsOf s.accepted b := by
    intro b hb; rw [msgsOf_append, if_neg (by omega)]
  exact
  { h with
    flushOK := fun f hf => by
      have := h.flushOK f hf
      cases f with
      | acquired n => exact this
      | swapped x msgs => exact ⟨this.1, this.2.1, by rw [hold _ this.2.1]; exact this.2.2.1, this.2.2.2⟩
      | checked x msgs => exact ⟨this.1, this.2.1, by rw [hold _ this.2.1]; exact this.2.2.1, this.2.2.2⟩
      | wrote x msgs ok => exact ⟨this.1, this.2.1, by rw [hold _ this.2.1]; exact this.2.2.1, this.2.2.2⟩
      | ended x msgs => exact this
    acqFree := fun n hn u hu => by
      rcases List.mem_append.1 hu with h1 | h1
      · exact h.acqFree n hn u h1
      · simp at h1; subst h1; exact hcur n hn
    accLe := fun p hp => by
      rcases List.mem_append.1 hp with h1 | h1
      · exact h.accLe p h1
      · simp at h1; subst h1; exact Nat.le_refl _
    accSorted := by
      rw [List.pairwise_append]
      exact ⟨h.accSorted, by simp, fun p hp q hq => by simp at hq; subst hq; exact h.accLe p hp⟩
    bufEq := by
      show s.buf ++ [m] = _
      rw [msgsOf_append, if_pos rfl, ← h.bufEq]
    users := fun u hu k hk => by
      rcases List.mem_append.1 hu with h1 | h1
      · obtain ⟨m', h2, h3⟩ := h.users u h1 k hk
        exact ⟨m', hacc k _ h2, h3⟩
      · simp at h1; subst h1
        simp at hk; subst hk
        refine ⟨m, by simp [h.curBatch], ?_⟩
        intro hc; simp [h.curOpen] at hc
    wireStatus := fun p hp => by
      have := h.wireStatus p hp
      refine ⟨this.1, ?_⟩
      rw [hold p.1 (h.statusLt p.1 (by rw [this.1]; simp))]; exact this.2
    size := fun b => by
      show msgsOf (s.accepted ++ [(s.swaps, m)]) b = [] ∨ 44 + bufSize (msgsOf (s.accepted ++ [(s.swaps, m)]) b) ≤ limit
      rw [msgsOf_append]
      split
      · rename_i e; subst e
        right; rw [← h.bufEq, bufSize_append]; omega
      · exact h.size b
    rets := fun r hr hv k hk => by
      obtain ⟨b, m', h1, h2⟩ := h.rets r hr hv k hk
      exact ⟨b, m', hacc k _ h1, h2⟩
    waits := fun u hu hk hc => by
      rcases List.mem_append.1 hu with h1 | h1
      · exact h.waits u h1 hk hc
      · simp at h1; subst h1; exact .inl rfl }

theorem Core.not_role {limit s f fl} (h : Core limit s (f :: fl)) {x : Nat} (hx : x ∈ f.roles) :
    x ≠ s.cur ∧ ∀ g ∈ fl, x ∉ g.roles := by
  have := h.roles
  simp only [List.flatMap_cons, List.nodup_cons, List.mem_append, List.nodup_append] at this
  refine ⟨fun e => this.1 (.inl (e ▸ hx)), fun g hg hxg => ?_⟩
  exact this.2.2.2 x hx x (List.mem_flatMap.2 ⟨g, hg, hxg⟩) rfl

theorem Core.not_batch {limit s f fl} (h : Core limit s (f :: fl)) {x : Nat} (hx : x ∈ f.pend) :
    ∀ g ∈ fl, ∀ y ∈ g.pend, (s.infos y).batch ≠ (s.infos x).batch := by
  have := h.pend
  simp only [List.flatMap_cons, List.map_append, List.nodup_append] at this
  intro g hg y hy e
  exact this.2.2 _ (List.mem_map.2 ⟨x, hx, rfl⟩) _ (List.mem_map.2 ⟨y, List.mem_flatMap.2 ⟨g, hg, hy⟩, rfl⟩) e.symm

/-- The swap. -/
theorem Core.swap {limit s fl n} (h : Core limit s (.acquired n :: fl)) :
    Core limit { s with cur := n, buf := [], swaps := s.swaps + 1
                        infos := setInfo s.infos n { s.infos n with batch := s.swaps + 1 } }
      (.swapped s.cur s.buf :: fl) := by
  have hno : (s.infos n).closed = false := h.flushOK (.acquired n) (by simp)
  have hnr := h.not_role (x := n) (by simp [Flush.roles])
  have hcn : setInfo s.infos n { s.infos n with batch := s.swaps + 1 } s.cur = s.infos s.cur := setInfo_other (Ne.symm hnr.1)
  have hpn : ∀ g ∈ fl, ∀ y ∈ g.pend, y ≠ n := fun g hg y hy e => by
    refine hnr.2 g hg ?_
    subst e
    cases g <;> simp_all [Flush.pend, Flush.roles]
  have hpi : ∀ g ∈ fl, ∀ y ∈ g.pend, setInfo s.infos n { s.infos n with batch := s.swaps + 1 } y = s.infos y :=
    fun g hg y hy => setInfo_other (hpn g hg y hy)
  have hui : ∀ u ∈ s.users, setInfo s.infos n { s.infos n with batch := s.swaps + 1 } u.info = s.infos u.info :=
    fun u hu => setInfo_other (h.acqFree n (by simp) u hu)
  have hst : s.status s.swaps = none := by
    cases hh : s.status s.swaps with
    | none => rfl
    | some b => have := h.statusLt s.swaps (by rw [hh]; simp); omega
  have hcl : ∀ x, (setInfo s.infos n { s.infos n with batch := s.swaps + 1 } x).closed = (s.infos x).closed := by
    intro x; by_cases e : x = n
    · subst e; simp
    · rw [setInfo_other e]
  exact
  { flushOK := fun f hf => by
      rcases List.mem_cons.1 hf with e | e
      · subst e
        refine ⟨?_, ?_, ?_, ?_⟩
        · simp only; rw [hcn]; exact h.curOpen
        · simp only; rw [hcn, h.curBatch]; omega
        · simp only; rw [hcn, h.curBatch]; exact h.bufEq
        · simp only; rw [hcn, h.curBatch]; exact hst
      · have h0 := h.flushOK f (List.mem_cons_of_mem _ e)
        have h1 := hpi f e
        cases f with
        | acquired m => simp only [FlushOK] at *; rw [hcl]; exact h0
        | ended x ms => simp only [FlushOK] at *; rw [hcl]; exact h0
        | swapped x ms => simp only [FlushOK] at *; rw [h1 x (by simp [Flush.pend])]; exact ⟨h0.1, by omega, h0.2.2⟩
        | checked x ms => simp only [FlushOK] at *; rw [h1 x (by simp [Flush.pend])]; exact ⟨h0.1, by omega, h0.2.2⟩
        | wrote x ms ok => simp only [FlushOK] at *; rw [h1 x (by simp [Flush.pend])]; exact ⟨h0.1, by omega, h0.2.2⟩
    roles := by
      have := h.roles
      simp only [List.flatMap_cons, Flush.roles, List.cons_append, List.nil_append] at *
      exact (List.Perm.nodup_iff (List.Perm.swap _ _ _)).1 this
    pend := by
      have hp := h.pend
      simp only [List.flatMap_cons, Flush.pend, List.nil_append, List.cons_append, List.map_cons, List.nodup_cons] at *
      have hm : (fl.flatMap Flush.pend).map (fun x => (setInfo s.infos n { s.infos n with batch := s.swaps + 1 } x).batch) =
          (fl.flatMap Flush.pend).map (fun x => (s.infos x).batch) := by
        apply List.map_congr_left
        intro x hx
        obtain ⟨g, hg, hx⟩ := List.mem_flatMap.1 hx
        rw [hpi g hg x hx]
      refine ⟨fun hh => ?_, hm ▸ hp⟩
      rw [hm, hcn, h.curBatch] at hh
      obtain ⟨x, hx, e⟩ := List.mem_map.1 hh
      obtain ⟨g, hg, hx⟩ := List.mem_flatMap.1 hx
      have h0 := h.flushOK g (List.mem_cons_of_mem _ hg)
      cases g <;> simp_all [Flush.pend, FlushOK]
    acqFree := fun m hm => h.acqFree m (by simp at hm; exact List.mem_cons_of_mem _ hm)
    curOpen := by simp only; rw [hcl]; exact hno
    curBatch := by simp
    accLe := fun p hp => by have := h.accLe p hp; simp only; omega
    accSorted := h.accSorted
    bufEq := by
      show [] = (s.accepted.filter _).map _
      rw [List.filter_eq_nil_iff.2]
      · rfl
      · intro p hp
        have := h.accLe p hp
        simp; omega
    statusLt := fun b hb => by have := h.statusLt b hb; simp only; omega
    users := fun u hu k hk => by simp only; rw [hui u hu]; exact h.users u hu k hk
    wireStatus := h.wireStatus
    statusWire := h.statusWire
    size := h.size
    rets := h.rets
    waits := fun u hu hk hc => by
      simp only at hc
      rw [hcl] at hc
      rcases h.waits u hu hk hc with e | ⟨f, hf, hx⟩
      · exact .inr ⟨_, List.mem_cons_self .., by rw [e]; exact List.mem_cons_self ..⟩
      · rcases List.mem_cons.1 hf with e | e
        · subst e; cases hx
        · exact .inr ⟨f, List.mem_cons_of_mem _ e, hx⟩ }

/-- `sendMessages` returns. -/
theorem Core.result {limit s fl f x msgs ok} (h : Core limit s (f :: fl))
    (hf : f = .swapped x msgs ∨ f = .checked x msgs) (hne : ok = true → msgs ≠ []) (w : List (Nat × List Bytes))
    (hw : w = if ok then s.wire ++ [((s.infos x).batch, msgs)] else s.wire) :
    Core limit { setResult s x ok with wire := w } (.wrote x msgs ok :: fl) := by
  have h0 : (s.infos x).closed = false ∧ (s.infos x).batch < s.swaps ∧
      msgs = msgsOf s.accepted (s.infos x).batch ∧ s.status (s.infos x).batch = none := by
    rcases hf with e | e <;> subst e
    · exact h.flushOK _ (List.mem_cons_self ..)
    · have h1 := h.flushOK _ (List.mem_cons_self ..)
      exact ⟨h1.1, h1.2.1, h1.2.2.1, h1.2.2.2.1⟩
  have hxr : x ∈ f.roles := by rcases hf with e | e <;> subst e <;> simp [Flush.roles]
  have hxp : x ∈ f.pend := by rcases hf with e | e <;> subst e <;> simp [Flush.pend]
  have hnr := h.not_role hxr
  have hnb := h.not_batch hxp
  have hcl : ∀ y, ((setResult s x ok).infos y).closed = (s.infos y).closed := by
    intro y; by_cases e : y = x
    · subst e; simp [setResult]
    · simp [setResult, setInfo_other e]
  have hba : ∀ y, ((setResult s x ok).infos y).batch = (s.infos y).batch := by
    intro y; by_cases e : y = x
    · subst e; simp [setResult]
    · simp [setResult, setInfo_other e]
  have herr : ∀ y, y ≠ x → ((setResult s x ok).infos y).err = (s.infos y).err := by
    intro y e; simp [setResult, setInfo_other e]
  have hst : ∀ b, s.status b ≠ none → (setResult s x ok).status b = s.status b := by
    intro b hb
    have : b ≠ (s.infos x).batch := fun e => hb (e ▸ h0.2.2.2)
    simp [setResult, this]
  have hst2 : ∀ b, b ≠ (s.infos x).batch → (setResult s x ok).status b = s.status b := by
    intro b hb; simp [setResult, hb]
  exact
  { flushOK := fun g hg => by
      rcases List.mem_cons.1 hg with e | e
      · subst e
        refine ⟨?_, ?_, ?_, ?_, ?_⟩
        · simp only; rw [hcl]; exact h0.1
        · simp only; rw [hba]; exact h0.2.1
        · simp only; rw [hba]; exact h0.2.2.1
        · simp only; rw [hba]; simp [setResult]
        · simp [setResult]
      · have h1 := h.flushOK g (List.mem_cons_of_mem _ e)
        have h2 := hnb g e
        have h3 := hnr.2 g e
        cases g with
        | acquired m => simp only [FlushOK] at *; rw [hcl]; exact h1
        | ended y ms => simp only [FlushOK] at *; rw [hcl]; exact h1
        | swapped y ms =>
          simp only [FlushOK] at *
          rw [hcl, hba, hst2 _ (h2 y (by simp [Flush.pend]))]; exact h1
        | checked y ms =>
          simp only [FlushOK] at *
          rw [hcl, hba, hst2 _ (h2 y (by simp [Flush.pend]))]; exact h1
        | wrote y ms ok' =>
          simp only [FlushOK] at *
          rw [hcl, hba, hst2 _ (h2 y (by simp [Flush.pend])), herr y (fun e => h3 (by simp [Flush.roles, e]))]
          exact h1
    roles := by
      have := h.roles
      rcases hf with e | e <;> subst e <;> exact this
    pend := by
      have := h.pend
      simp only [hba]
      rcases hf with e | e <;> subst e <;> exact this
    acqFree := fun m hm => h.acqFree m (by simp at hm; exact List.mem_cons_of_mem _ hm)
    curOpen := by simp only; rw [hcl]; exact h.curOpen
    curBatch := by simp only; rw [hba]; exact h.curBatch
    accLe := h.accLe
    accSorted := h.accSorted
    bufEq := h.bufEq
    statusLt := fun b hb => by
      by_cases e : b = (s.infos x).batch
      · subst e; exact h0.2.1
      · simp only at hb; rw [hst2 b e] at hb; exact h.statusLt b hb
    users := fun u hu k hk => by
      obtain ⟨m, h1, h2⟩ := h.users u hu k hk
      refine ⟨m, by simp only; rw [hba]; exact h1, fun hc => ?_⟩
      simp only at hc ⊢
      rw [hcl] at hc
      have h3 := h2 hc
      have : u.info ≠ x := fun e => by rw [e, h0.1] at hc; simp at hc
      rw [hba, hst _ (by rw [h3]; simp), herr _ this]; exact h3
    wireStatus := fun p hp => by
      simp only at hp
      rw [hw] at hp
      cases ok with
      | false =>
        simp at hp
        have := h.wireStatus p hp
        exact ⟨by simp only; rw [hst p.1 (by rw [this.1]; simp)]; exact this.1, this.2⟩
      | true =>
        simp at hp
        rcases hp with hp | hp
        · have := h.wireStatus p hp
          exact ⟨by simp only; rw [hst p.1 (by rw [this.1]; simp)]; exact this.1, this.2⟩
        · subst hp
          exact ⟨by simp [setResult], h0.2.2.1, hne rfl⟩
    statusWire := fun b hb => by
      simp only
      rw [hw]
      by_cases e : b = (s.infos x).batch
      · subst e
        simp [setResult] at hb
        subst hb; simp
      · simp only at hb
        rw [hst2 b e] at hb
        have := h.statusWire b hb
        split
        · rw [List.map_append]; exact List.mem_append.2 (.inl this)
        · exact this
    size := h.size
    rets := fun r hr hv k hk => by
      obtain ⟨b, m, h1, h2⟩ := h.rets r hr hv k hk
      exact ⟨b, m, h1, by simp only; rw [hst b (by rw [h2]; simp)]; exact h2⟩
    waits := fun u hu hk hc => by
      simp only at hc
      rw [hcl] at hc
      refine (h.waits u hu hk hc).imp id fun ⟨g, hg, hx⟩ => ?_
      rcases List.mem_cons.1 hg with e | e
      · refine ⟨_, List.mem_cons_self .., ?_⟩
        subst e
        rcases hf with e | e <;> subst e <;> exact hx
      · exact ⟨g, List.mem_cons_of_mem _ e, hx⟩ }

/-- The channel is closed. -/
theorem Core.close {limit s fl f x msgs} (h : Core limit s (f :: fl))
    (hf : (f = .swapped x msgs ∧ msgs = []) ∨ ∃ ok, f = .wrote x msgs ok) :
    Core limit { s with infos := setInfo s.infos x { s.infos x with closed := true } } (.ended x msgs :: fl) := by
  have hxr : x ∈ f.roles := by
    rcases hf with ⟨e, _⟩ | ⟨_, e⟩ <;> subst e <;> simp [Flush.roles]
  have hnr := h.not_role hxr
  have hba : ∀ y, (setInfo s.infos x { s.infos x with closed := true } y).batch = (s.infos y).batch := by
    intro y; by_cases e : y = x
    · subst e; simp
    · rw [setInfo_other e]
  have herr : ∀ y, (setInfo s.infos x { s.infos x with closed := true } y).err = (s.infos y).err := by
    intro y; by_cases e : y = x
    · subst e; simp
    · rw [setInfo_other e]
  exact
  { h with
    flushOK := fun g hg => by
      rcases List.mem_cons.1 hg with e | e
      · subst e; simp [FlushOK]
      · have h1 := h.flushOK g (List.mem_cons_of_mem _ e)
        have h3 := hnr.2 g e
        cases g with
        | ended y ms =>
          simp only [FlushOK] at *
          by_cases e : y = x
          · subst e; simp
          · rw [setInfo_other e]; exact h1
        | _ =>
          simp only [FlushOK, Flush.roles, List.mem_singleton] at *
          rw [setInfo_other (Ne.symm h3)]; exact h1
    roles := by
      have := h.roles
      simp only [List.flatMap_cons, Flush.roles, List.nil_append] at *
      exact List.Nodup.sublist (List.Sublist.cons_cons _ (List.sublist_append_right _ _)) this
    pend := by
      have := h.pend
      simp only [List.flatMap_cons, Flush.pend, List.nil_append, List.map_append, hba] at *
      exact List.Nodup.sublist (List.sublist_append_right _ _) this
    acqFree := fun m hm => h.acqFree m (by simp at hm; exact List.mem_cons_of_mem _ hm)
    curOpen := by simp only; rw [setInfo_other (Ne.symm hnr.1)]; exact h.curOpen
    curBatch := by simp only; rw [hba]; exact h.curBatch
    users := fun u hu k hk => by
      obtain ⟨m, h1, h2⟩ := h.users u hu k hk
      refine ⟨m, by simp only; rw [hba]; exact h1, fun hc => ?_⟩
      simp only at hc ⊢
      rw [hba, herr]
      by_cases e : u.info = x
      · rcases hf with ⟨e1, e2⟩ | ⟨ok, e1⟩
        · exfalso
          subst e1
          have h3 := (h.flushOK _ (List.mem_cons_self ..)).2.2.1
          rw [e2] at h3
          rw [e] at h1
          have h4 : ((s.infos x).batch, m) ∈ s.accepted := List.mem_of_getElem? h1
          have h5 : m ∈ msgsOf s.accepted (s.infos x).batch := by
            simp only [msgsOf, List.mem_map, List.mem_filter]
            exact ⟨_, ⟨h4, by simp⟩, rfl⟩
          rw [← h3] at h5; simp at h5
        · subst e1
          have h3 := (h.flushOK _ (List.mem_cons_self ..)).2.2.2
          rw [e, h3.1, h3.2]; simp
      · rw [setInfo_other e] at hc; exact h2 hc
    waits := fun u hu hk hc => by
      have hne : u.info ≠ x := fun e => by simp [e] at hc
      simp only at hc
      rw [setInfo_other hne] at hc
      refine (h.waits u hu hk hc).imp id fun ⟨g, hg, hx⟩ => ?_
      rcases List.mem_cons.1 hg with e | e
      · exfalso
        subst e
        rcases hf with ⟨e, _⟩ | ⟨_, e⟩ <;> subst e <;> exact hne (List.mem_singleton.1 hx)
      · exact ⟨g, List.mem_cons_of_mem _ e, hx⟩ }

/-- The rest of a flush as a list. -/
def FRes.flush? : FRes → List Flush
  | .running f => [f]
  | .over _ _ => []

theorem Core.release {limit s s' fl x} (h : Core limit s fl) {H F F' : List Nat}
    (href : RefOK s.infos s.next s.pool (x :: H) F) (hf : ∀ y ∈ F', y ∈ F) (hh : ∀ y ∈ F', y ∈ H)
    (hrel : ∀ y ∈ relevant s fl, y ∈ F') (hs : release s x = .ok s') : Core limit s' fl := by
  have hr := release_ok href hf hh hs
  have e := hr.1.eq
  refine h.heap (fun y hy => ?_) (by rw [e]) (by rw [e]) (by rw [e]) (by rw [e]) (by rw [e]) (by rw [e]) (by rw [e])
    (by rw [e])
  by_cases hyx : y = x
  · subst hyx
    have hb := hr.2.firm y (hrel y hy)
    have := hr.1.busy hb
    rw [this]; simp
  · rw [hr.1.other y hyx]; simp

theorem flushStep_core {limit s s' f a r fl} (h : Core limit s (f :: fl)) {R FR : List Nat}
    (hsub : ∀ x ∈ FR, x ∈ R)
    (href : RefOK s.infos s.next s.pool (s.cur :: (f.held ++ R)) (s.cur :: (f.held ++ FR)))
    (hrel : ∀ y ∈ relevant s fl, y ∈ s.cur :: FR)
    (hs : flushStep s f a = .ok (s', r)) : Core limit s' (r.flush? ++ fl) := by
  unfold flushStep at hs
  split at hs
  · simp only [Outcome.ok.injEq, Prod.mk.injEq] at hs
    obtain ⟨rfl, rfl⟩ := hs
    exact h.swap
  · split at hs
    · exact absurd hs (by simp)
    · simp only [Outcome.ok.injEq, Prod.mk.injEq] at hs
      obtain ⟨rfl, rfl⟩ := hs
      exact h.result (.inl rfl) (by simp) s.wire (by simp)
  · split at hs
    · exact absurd hs (by simp)
    · rename_i hms
      split at hs
      · simp only [Outcome.ok.injEq, Prod.mk.injEq] at hs
        obtain ⟨rfl, rfl⟩ := hs
        exact h.result (.inl rfl) (by simp) s.wire (by simp)
      · simp only [Outcome.ok.injEq, Prod.mk.injEq] at hs
        obtain ⟨rfl, rfl⟩ := hs
        exact { h with
                flushOK := fun g hg => by
                  rcases List.mem_cons.1 hg with e | e
                  · subst e; have h1 := h.flushOK _ (List.mem_cons_self ..); exact ⟨h1.1, h1.2.1, h1.2.2.1, h1.2.2.2, hms⟩
                  · exact h.flushOK g (List.mem_cons_of_mem _ e)
                roles := h.roles
                pend := h.pend
                acqFree := fun m hm => h.acqFree m (by simp [FRes.flush?] at hm; exact List.mem_cons_of_mem _ hm)
                waits := fun u hu hk hc => (h.waits u hu hk hc).imp id fun ⟨g, hg, hx⟩ => by
                  rcases List.mem_cons.1 hg with e | e
                  · subst e; exact ⟨_, List.mem_cons_self .., hx⟩
                  · exact ⟨g, List.mem_cons_of_mem _ e, hx⟩ }
  · rename_i x msgs ok
    simp only [Outcome.ok.injEq, Prod.mk.injEq] at hs
    obtain ⟨rfl, rfl⟩ := hs
    refine h.result (.inr rfl) (fun _ => (h.flushOK _ (List.mem_cons_self ..)).2.2.2.2) _ ?_
    simp [setResult]
  · split at hs
    · exact absurd hs (by simp)
    · rename_i hms
      split at hs
      · exact absurd hs (by simp)
      · simp only [Outcome.ok.injEq, Prod.mk.injEq] at hs
        obtain ⟨rfl, rfl⟩ := hs
        exact h.close (.inl ⟨rfl, by simpa using hms⟩)
  · split at hs
    · exact absurd hs (by simp)
    · simp only [Outcome.ok.injEq, Prod.mk.injEq] at hs
      obtain ⟨rfl, rfl⟩ := hs
      exact h.close (.inr ⟨_, rfl⟩)
  · rename_i x msgs
    split at hs <;> try (simp at hs; done)
    rename_i s1 hrl
    simp only [Outcome.ok.injEq, Prod.mk.injEq] at hs
    obtain ⟨rfl, rfl⟩ := hs
    have h' : RefOK s.infos s.next s.pool (x :: (s.cur :: R)) (x :: (s.cur :: FR)) :=
      href.change (by intro y; simp [Flush.held, List.count_cons]; omega)
        (by intro y hy; simp [Flush.held] at *; grind)
        (by intro y hy; simp at *; rcases hy with h1 | h1 | h1
            · exact .inl h1
            · exact .inr (.inl h1)
            · exact .inr (.inr (hsub y h1)))
    exact (h.tail rfl).release (F' := s.cur :: FR) h' (by intro y hy; exact List.mem_cons_of_mem _ hy)
      (by intro y hy; simp at *; rcases hy with h1 | h1
          · exact .inl h1
          · exact .inr (hsub y h1)) hrel hrl
  · exact absurd hs (by simp)

theorem flushStep_batch {s s' : State} {f : Flush} {a : FAct} {r : FRes} (hs : flushStep s f a = .ok (s', r)) (y : Nat)
    (hy : f ≠ .acquired y) : (s'.infos y).batch = (s.infos y).batch := by
  have hset : ∀ x (v : Info), v.batch = (s.infos x).batch → (setInfo s.infos x v y).batch = (s.infos y).batch := by
    intro x v hv
    by_cases e : y = x
    · subst e; simp [hv]
    · rw [setInfo_other e]
  unfold flushStep at hs
  split at hs
  · rename_i n
    simp only [Outcome.ok.injEq, Prod.mk.injEq] at hs
    obtain ⟨rfl, rfl⟩ := hs
    simp only
    rw [setInfo_other (fun e => hy (by rw [e]))]
  · split at hs
    · exact absurd hs (by simp)
    · simp only [Outcome.ok.injEq, Prod.mk.injEq] at hs
      obtain ⟨rfl, rfl⟩ := hs
      exact hset _ _ rfl
  · split at hs
    · exact absurd hs (by simp)
    · split at hs
      · simp only [Outcome.ok.injEq, Prod.mk.injEq] at hs
        obtain ⟨rfl, rfl⟩ := hs
        exact hset _ _ rfl
      · simp only [Outcome.ok.injEq, Prod.mk.injEq] at hs
        obtain ⟨rfl, rfl⟩ := hs
        rfl
  · simp only [Outcome.ok.injEq, Prod.mk.injEq] at hs
    obtain ⟨rfl, rfl⟩ := hs
    exact hset _ _ rfl
  · split at hs
    · exact absurd hs (by simp)
    · split at hs
      · exact absurd hs (by simp)
      · simp only [Outcome.ok.injEq, Prod.mk.injEq] at hs
        obtain ⟨rfl, rfl⟩ := hs
        exact hset _ _ rfl
  · split at hs
    · exact absurd hs (by simp)
    · simp only [Outcome.ok.injEq, Prod.mk.injEq] at hs
      obtain ⟨rfl, rfl⟩ := hs
      exact hset _ _ rfl
  · rename_i x msgs
    split at hs <;> try (simp at hs; done)
    rename_i s1 hrel
    simp only [Outcome.ok.injEq, Prod.mk.injEq] at hs
    obtain ⟨rfl, rfl⟩ := hs
    unfold release at hrel
    simp only at hrel
    repeat' split at hrel
    all_goals try (simp at hrel; done)
    all_goals (simp only [Outcome.ok.injEq] at hrel; subst hrel; exact hset _ _ rfl)
  · exact absurd hs (by simp)

theorem flushStep_wire {s s' : State} {f : Flush} {a : FAct} {r : FRes} (hs : flushStep s f a = .ok (s', r)) :
    s'.wire = s.wire ∨
    ∃ x msgs, f = .checked x msgs ∧ a = .write true ∧ s'.wire = s.wire ++ [((s.infos x).batch, msgs)] ∧
      r = .running (.wrote x msgs true) := by
  unfold flushStep at hs
  split at hs
  · simp only [Outcome.ok.injEq, Prod.mk.injEq] at hs
    obtain ⟨rfl, rfl⟩ := hs; exact .inl rfl
  · split at hs
    · exact absurd hs (by simp)
    · simp only [Outcome.ok.injEq, Prod.mk.injEq] at hs
      obtain ⟨rfl, rfl⟩ := hs; exact .inl rfl
  · split at hs
    · exact absurd hs (by simp)
    · split at hs
      · simp only [Outcome.ok.injEq, Prod.mk.injEq] at hs
        obtain ⟨rfl, rfl⟩ := hs; exact .inl rfl
      · simp only [Outcome.ok.injEq, Prod.mk.injEq] at hs
        obtain ⟨rfl, rfl⟩ := hs; exact .inl rfl
  · rename_i x msgs ok
    simp only [Outcome.ok.injEq, Prod.mk.injEq] at hs
    obtain ⟨rfl, rfl⟩ := hs
    cases ok with
    | false => exact .inl rfl
    | true => exact .inr ⟨x, msgs, rfl, rfl, by simp [setResult], rfl⟩
  · split at hs
    · exact absurd hs (by simp)
    · split at hs
      · exact absurd hs (by simp)
      · simp only [Outcome.ok.injEq, Prod.mk.injEq] at hs
        obtain ⟨rfl, rfl⟩ := hs; exact .inl rfl
  · split at hs
    · exact absurd hs (by simp)
    · simp only [Outcome.ok.injEq, Prod.mk.injEq] at hs
      obtain ⟨rfl, rfl⟩ := hs; exact .inl rfl
  · rename_i x msgs
    split at hs <;> try (simp at hs; done)
    rename_i s1 hrel
    simp only [Outcome.ok.injEq, Prod.mk.injEq] at hs
    obtain ⟨rfl, rfl⟩ := hs
    unfold release at hrel
    simp only at hrel
    repeat' split at hrel
    all_goals try (simp at hrel; done)
    all_goals (simp only [Outcome.ok.injEq] at hrel; subst hrel; exact .inl rfl)
  · exact absurd hs (by simp)

/-- Where the next phase of a flush comes from. -/
theorem flushStep_unsent {s s' : State} {f g : Flush} {a : FAct} (hs : flushStep s f a = .ok (s', .running g)) :
    (∀ x msgs, g = .checked x msgs → s.done = false ∧ f = .swapped x msgs) ∧
    (∀ x ∈ g.unsent, x ∈ f.unsent ∨ ∃ n, f = .acquired n ∧ x = s.cur) := by
  unfold flushStep at hs
  split at hs
  · simp only [Outcome.ok.injEq, Prod.mk.injEq, FRes.running.injEq] at hs
    obtain ⟨rfl, rfl⟩ := hs; simp [Flush.unsent]
  · split at hs
    · exact absurd hs (by simp)
    · simp only [Outcome.ok.injEq, Prod.mk.injEq, FRes.running.injEq] at hs
      obtain ⟨rfl, rfl⟩ := hs; simp [Flush.unsent]
  · split at hs
    · exact absurd hs (by simp)
    · split at hs
      · simp only [Outcome.ok.injEq, Prod.mk.injEq, FRes.running.injEq] at hs
        obtain ⟨rfl, rfl⟩ := hs; simp [Flush.unsent]
      · rename_i hd
        simp only [Outcome.ok.injEq, Prod.mk.injEq, FRes.running.injEq] at hs
        obtain ⟨rfl, rfl⟩ := hs; simp [Flush.unsent]; simpa using hd
  · simp only [Outcome.ok.injEq, Prod.mk.injEq, FRes.running.injEq] at hs
    obtain ⟨rfl, rfl⟩ := hs; simp [Flush.unsent]
  · split at hs
    · exact absurd hs (by simp)
    · split at hs
      · exact absurd hs (by simp)
      · simp only [Outcome.ok.injEq, Prod.mk.injEq, FRes.running.injEq] at hs
        obtain ⟨rfl, rfl⟩ := hs; simp [Flush.unsent]
  · split at hs
    · exact absurd hs (by simp)
    · simp only [Outcome.ok.injEq, Prod.mk.injEq, FRes.running.injEq] at hs
      obtain ⟨rfl, rfl⟩ := hs; simp [Flush.unsent]
  · split at hs <;> simp at hs
  · exact absurd hs (by simp)

theorem dinv_init (limit : Nat) : DInv limit State.init where
  core := { flushOK := by simp [State.init, Main.flush?, Closer.flush?]
            roles := by simp [State.init, Main.flush?, Closer.flush?]
            pend := by simp [State.init, Main.flush?, Closer.flush?]
            acqFree := by simp [State.init]
            curOpen := by simp [State.init]
            curBatch := by simp [State.init]
            accLe := by simp [State.init]
            accSorted := by simp [State.init]
            bufEq := by simp [State.init, msgsOf]
            statusLt := by simp [State.init]
            users := by simp [State.init]
            wireStatus := by simp [State.init]
            statusWire := by simp [State.init]
            size := by simp [State.init, msgsOf]
            rets := by simp [State.init]
            waits := by simp [State.init] }
  frags := rfl
  wireSorted := by simp [State.init]
  wireMain := by simp [State.init]
  closerDone := by simp [State.init]
  closerChecked := by simp [State.init, Closer.flush?]

theorem relevant_firm (s : State) : ∀ x ∈ relevant s (s.main.flush? ++ s.closer.flush?), x ∈ firm s := by
  intro x hx
  have h1 : s.main.flush?.flatMap Flush.held = s.main.firm := by cases s.main <;> simp [Main.flush?, Main.firm]
  have h2 : s.closer.flush?.flatMap Flush.held = s.closer.held := by cases s.closer <;> simp [Closer.flush?, Closer.held]
  simp only [relevant, List.flatMap_append, h1, h2, List.mem_cons, List.mem_append] at hx
  simp only [firm, List.mem_cons, List.mem_append]
  exact hx

theorem acquired_firm {s s' : State} {n : Nat} (h : RInv s) (ha : Acquired s s' n) : n ∉ firm s := by
  intro hn
  have := h.ref.firm n hn
  rw [ha.free] at this; simp at this

/-- Steps that leave everything but reference counts, writers and the like. -/
theorem DInv.heap {limit s s'} (h : DInv limit s)
    (hi : ∀ x ∈ relevant s (s.main.flush? ++ s.closer.flush?), (s'.infos x).closed = (s.infos x).closed ∧
      (s'.infos x).err = (s.infos x).err ∧ (s'.infos x).batch = (s.infos x).batch)
    (hcur : s'.cur = s.cur) (hbuf : s'.buf = s.buf) (husers : s'.users = s.users)
    (hacc : s'.accepted = s.accepted) (hsw : s'.swaps = s.swaps) (hst : s'.status = s.status)
    (hw : s'.wire = s.wire) (hr : s'.rets = s.rets) (hm : s'.main.flush? = s.main.flush?) (hcl : s'.closer = s.closer)
    (hd : s.done = true → s'.done = true) (hf : s'.frags = s.frags) : DInv limit s' where
  core := by rw [hm, hcl]; exact h.core.heap hi hcur hbuf husers hacc hsw hst hw hr
  frags := by rw [hf]; exact h.frags
  wireSorted := by rw [hw]; exact h.wireSorted
  wireMain := fun f hff x hx p hp => by
    rw [hm] at hff
    rw [hw] at hp
    rw [(hi x (by
      simp only [relevant, List.mem_cons, List.mem_append, List.mem_flatMap]
      exact .inr (.inl ⟨f, .inl hff, pend_held f x (unsent_pend f x hx)⟩))).2.2]
    exact h.wireMain f hff x hx p hp
  closerDone := by rw [hcl]; exact fun hc => hd (h.closerDone hc)
  closerChecked := by rw [hcl]; exact h.closerChecked

theorem DInv.setUsers {limit s} (h : DInv limit s) (us : List User)
    (hu : ∀ u ∈ us, (∃ u' ∈ s.users, u'.info = u.info ∧ u'.idx = u.idx) ∨
      (u.idx = none ∧ ∀ n, Flush.acquired n ∈ s.main.flush? ++ s.closer.flush? → u.info ≠ n)) :
    DInv limit { s with users := us } where
  core := h.core.setUsers us hu
  frags := h.frags
  wireSorted := h.wireSorted
  wireMain := h.wireMain
  closerDone := h.closerDone
  closerChecked := h.closerChecked

/-- A `SendInfo` with an error is made. -/
theorem dinv_acquireError {limit s s' r n} (h : DInv limit s) (hr : RInv s) (ha : acquireError s r = .ok (s', n)) :
    DInv limit s' ∧ n ∉ firm s ∧ s'.users = s.users ∧ s'.main = s.main ∧ s'.closer = s.closer := by
  obtain ⟨s0, _, ha, he, _⟩ := acquireError_ok hr.ref ha
  have e := ha.eq
  have hn := acquired_firm hr ha
  refine ⟨h.heap (fun x hx => ?_) (by rw [he, e]) (by rw [he, e]) (by rw [he, e]) (by rw [he, e]) (by rw [he, e])
    (by rw [he, e]) (by rw [he, e]) (by rw [he, e]) (by rw [he, e]) (by rw [he, e]) (by rw [he, e]; exact id)
    (by rw [he, e]), hn, by rw [he, e], by rw [he, e], by rw [he, e]⟩
  have hxn : x ≠ n := fun e => hn (e ▸ relevant_firm s x hx)
  rw [he]
  simp only
  rw [setInfo_other hxn, ha.other x hxn]; simp

theorem dinv_addError {limit s s' r n} (h : DInv limit s) (hr : RInv s) (ha : acquireError s r = .ok (s', n)) :
    DInv limit { s' with users := s'.users ++ [⟨n, none, false⟩] } := by
  obtain ⟨h1, hn, hu, hm, hc⟩ := dinv_acquireError h hr ha
  refine h1.setUsers _ (fun u hu' => ?_)
  rcases List.mem_append.1 hu' with h2 | h2
  · exact .inl ⟨u, h2, rfl, rfl⟩
  · simp at h2; subst h2
    refine .inr ⟨rfl, fun m hm' e => hn ?_⟩
    subst e
    refine relevant_firm s _ ?_
    rw [hm, hc] at hm'
    simp only [relevant, List.mem_cons, List.mem_append, List.mem_flatMap]
    exact .inr (.inl ⟨_, List.mem_append.1 hm', by simp [Flush.held]⟩)

theorem dinv_giveUp {limit s s' i m r} (h : DInv limit s) (hr : RInv s) (hs : giveUp s i m r = .ok s') : DInv limit s' := by
  unfold giveUp at hs
  split at hs <;> try (simp at hs; done)
  rename_i s1 n h1
  simp only [Outcome.ok.injEq] at hs; subst hs
  obtain ⟨h2, _⟩ := dinv_acquireError h hr h1
  exact h2.heap (fun _ _ => ⟨rfl, rfl, rfl⟩) rfl rfl rfl rfl rfl rfl rfl rfl rfl rfl id rfl

theorem dinv_incRef {limit s x} (h : DInv limit s) : DInv limit (incRef s x) := by
  refine h.heap (fun y _ => ?_) rfl rfl rfl rfl rfl rfl rfl rfl rfl rfl id rfl
  by_cases e : y = x
  · subst e; simp [incRef]
  · simp [incRef, setInfo_other e]

theorem dinv_writers {limit s} (h : DInv limit s) (ws : List Writer) : DInv limit { s with writers := ws } :=
  h.heap (fun _ _ => ⟨rfl, rfl, rfl⟩) rfl rfl rfl rfl rfl rfl rfl rfl rfl rfl id rfl

theorem dinv_main {limit s} (h : DInv limit s) (m : Main) (hm : m.flush? = s.main.flush?) : DInv limit { s with main := m } :=
  h.heap (fun _ _ => ⟨rfl, rfl, rfl⟩) rfl rfl rfl rfl rfl rfl rfl rfl hm rfl id rfl

theorem dinv_tryAppend {cfg : Cfg} {s s' m r} (h : DInv cfg.limit s) (hr : RInv s)
    (hs : tryAppend cfg s m r = .ok s') : DInv cfg.limit s' := by
  unfold tryAppend at hs
  split at hs
  · exact absurd hs (by simp)
  split at hs
  · split at hs
    · split at hs <;> try (simp at hs; done)
      rename_i s1 n h1
      simp only [Outcome.ok.injEq] at hs; subst hs
      exact dinv_addError h hr h1
    · simp only [Outcome.ok.injEq] at hs; subst hs
      exact dinv_writers h _
  · rename_i hfit
    simp only at hs
    split at hs
    · exact absurd hs (by simp)
    · simp only [Outcome.ok.injEq] at hs; subst hs
      have h1 := dinv_incRef (x := s.cur) h
      have h2 := h1.core.accept m (by show 44 + bufSize s.buf + m.length ≤ cfg.limit; omega) (by
        intro n hn
        have hro := h1.core.roles
        simp only [List.nodup_cons] at hro
        intro e
        exact hro.1 (List.mem_flatMap.2 ⟨_, hn, by simp [Flush.roles]; exact e⟩))
      exact { core := h2
              frags := h.frags
              wireSorted := h.wireSorted
              wireMain := h1.wireMain
              closerDone := h.closerDone
              closerChecked := h.closerChecked }

theorem dinv_acquire {limit s s' r n} (h : DInv limit s) (hr : RInv s) (ha : acquire s r = .ok (s', n)) :
    DInv limit s' ∧ n ∉ relevant s' (s'.main.flush? ++ s'.closer.flush?) ∧ (s'.infos n).closed = false ∧
      s'.main = s.main ∧ s'.closer = s.closer ∧ s'.done = s.done := by
  obtain ⟨ha, _⟩ := acquire_ok hr.ref ha
  have e := ha.eq
  have hn := acquired_firm hr ha
  have hrel : relevant s' (s'.main.flush? ++ s'.closer.flush?) = relevant s (s.main.flush? ++ s.closer.flush?) := by
    rw [e]; rfl
  refine ⟨h.heap (fun x hx => ?_) (by rw [e]) (by rw [e]) (by rw [e]) (by rw [e]) (by rw [e])
    (by rw [e]) (by rw [e]) (by rw [e]) (by rw [e]) (by rw [e]) (by rw [e]; exact id)
    (by rw [e]), ?_, by rw [ha.info], by rw [e], by rw [e], by rw [e]⟩
  · have hxn : x ≠ n := fun e => hn (e ▸ relevant_firm s x hx)
    rw [ha.other x hxn]; simp
  · rw [hrel]; exact fun hx => hn (relevant_firm s n hx)

theorem dinv_beginMain {limit s n} (h : DInv limit s) (m : Main) (hm : s.main.flush? = [])
    (hm' : m.flush? = [.acquired n]) (hn : n ∉ relevant s (s.main.flush? ++ s.closer.flush?))
    (ho : (s.infos n).closed = false) : DInv limit { s with main := m } where
  core := by
    have h1 := h.core.begin ho hn
    have h2 := h1.heap (s' := { s with main := m }) (fun _ _ => ⟨rfl, rfl, rfl⟩) rfl rfl rfl rfl rfl rfl rfl rfl
    simp only [hm, hm', List.nil_append, List.cons_append] at h2 ⊢
    exact h2
  frags := h.frags
  wireSorted := h.wireSorted
  wireMain := fun f hf x hx => by
    simp only [hm', List.mem_singleton] at hf
    subst hf; simp [Flush.unsent] at hx
  closerDone := h.closerDone
  closerChecked := h.closerChecked

theorem dinv_beginCloser {limit s n} (h : DInv limit s) (hc : s.closer.flush? = []) (hd : s.done = true)
    (hn : n ∉ relevant s (s.main.flush? ++ s.closer.flush?))
    (ho : (s.infos n).closed = false) : DInv limit { s with closer := .flush (.acquired n) } where
  core := by
    have h1 := h.core.begin ho hn
    have h2 := h1.heap (s' := { s with closer := .flush (.acquired n) }) (fun _ _ => ⟨rfl, rfl, rfl⟩) rfl rfl rfl rfl rfl rfl rfl rfl
    simp only [hc, List.append_nil] at h2
    refine h2.perm ?_
    exact (List.perm_append_comm (l₁ := [Flush.acquired n]))
  frags := h.frags
  wireSorted := h.wireSorted
  wireMain := h.wireMain
  closerDone := fun _ => hd
  closerChecked := fun f hf => by simp [Closer.flush?] at hf; subst hf; simp

/-- The references of a flush and those of the others. -/
theorem split_ref {s : State} (h : RInv s) (f : Flush) (R FR : List Nat)
    (hc : ∀ x, (s.cur :: (f.held ++ R)).count x ≤ (held s).count x)
    (hf : ∀ x ∈ s.cur :: (f.held ++ FR), x ∈ firm s) (hsub : ∀ x ∈ FR, x ∈ R) :
    RefOK s.infos s.next s.pool (s.cur :: (f.held ++ R)) (s.cur :: (f.held ++ FR)) := by
  refine h.ref.change hc hf ?_
  intro x hx
  simp only [List.mem_cons, List.mem_append] at *; grind

/-- A step of the main thread's flush. -/
theorem dinv_mainFlush {limit s s1 f a r} (h : DInv limit s) (hr : RInv s) (hf : s.main.flush? = [f])
    (hs : flushStep s f a = .ok (s1, r)) (m : Main) (hm : m.flush? = r.flush?) (l : Nat) :
    DInv limit { s1 with main := m, last := l } := by
  let D : List Nat := match s.main with | .flush d _ => d.toList | _ => []
  let R := D ++ (s.closer.held ++ s.writers.flatMap Writer.held ++ s.users.flatMap User.held)
  let FR := s.closer.held ++ s.users.map User.info
  have hsub : ∀ x ∈ FR, x ∈ R := by
    intro x hx
    have := firm_sub_held_users s.users x
    simp only [FR, R, List.mem_append] at *; grind
  have hmf : s.main.firm = f.held := by
    cases hmm : s.main <;> simp_all [Main.flush?, Main.firm]
  have hin := split_ref hr f R FR (by
      intro x
      have : s.main.held = D ++ f.held := by
        simp only [D]
        cases hmm : s.main <;> simp_all [Main.flush?, Main.held]
      simp [count_held, this, R, List.count_cons, List.count_append]; omega)
    (by intro x hx; simp only [firm, hmf, FR, List.mem_cons, List.mem_append] at *; grind) hsub
  have hcore : Core limit s (f :: s.closer.flush?) := by
    have := h.core; rw [hf] at this; exact this
  have hch : s.closer.flush?.flatMap Flush.held = s.closer.held := by
    cases s.closer <;> simp [Closer.flush?, Closer.held]
  have hc1 := flushStep_core hcore hsub hin (by
    intro y hy
    simp only [relevant, hch, FR, List.mem_cons, List.mem_append] at *; exact hy) hs
  have e := flushStep_frame hs
  have ecl : s1.closer = s.closer := by rw [e]
  have edone : s1.done = s.done := by rw [e]
  have efr : s1.frags = s.frags := by rw [e]
  exact
  { core := by
      have := hc1.heap (s' := { s1 with main := m, last := l }) (fun _ _ => ⟨rfl, rfl, rfl⟩) rfl rfl rfl rfl rfl rfl rfl rfl
      rw [← hm, ← ecl] at this; exact this
    frags := by simp only [efr]; exact h.frags
    wireSorted := by
      rcases flushStep_wire hs with hw | ⟨x, msgs, rfl, _, hw, _⟩
      · simp only [hw]; exact h.wireSorted
      · simp only [hw]
        rw [List.pairwise_append]
        exact ⟨h.wireSorted, by simp, fun p hp q hq => by
          simp at hq; subst hq
          exact h.wireMain (.checked x msgs) (by rw [hf]; simp) x (by simp [Flush.unsent]) p hp⟩
    wireMain := by
      intro g hg x hx p hp
      simp only [hm] at hg
      cases r with
      | over => simp [FRes.flush?] at hg
      | running g' =>
        simp [FRes.flush?] at hg
        subst hg
        rcases flushStep_wire hs with hw | ⟨y, msgs, rfl, _, hw, hg⟩
        · simp only [hw] at hp
          rcases (flushStep_unsent hs).2 x hx with hu | ⟨n, rfl, rfl⟩
          · simp only
            rw [flushStep_batch hs x (by intro e; subst e; simp [Flush.unsent] at hu)]
            exact h.wireMain f (by rw [hf]; simp) x hu p hp
          · have hne := (hcore.not_role (x := n) (by simp [Flush.roles])).1
            simp only
            rw [flushStep_batch hs s.cur (by intro e; simp at e; exact hne e), h.core.curBatch]
            exact h.core.statusLt p.1 (by rw [(h.core.wireStatus p hp).1]; simp)
        · simp only [FRes.running.injEq] at hg; subst hg; simp [Flush.unsent] at hx
    closerDone := by simp only [ecl, edone]; exact h.closerDone
    closerChecked := by simp only [ecl]; exact h.closerChecked }

/-- A step of the closer's flush. -/
theorem dinv_closerFlush {limit s s1 f a r} (h : DInv limit s) (hr : RInv s) (hf : s.closer = .flush f)
    (hs : flushStep s f a = .ok (s1, r)) (c : Closer) (hm : c.flush? = r.flush?) (x' : Bool) :
    DInv limit { s1 with closer := c, ctx := x' } := by
  let R := s.main.held ++ s.writers.flatMap Writer.held ++ s.users.flatMap User.held
  let FR := s.main.firm ++ s.users.map User.info
  have hsub : ∀ x ∈ FR, x ∈ R := by
    intro x hx
    have := firm_sub_held_users s.users x
    have := main_firm_held s.main x
    simp only [FR, R, List.mem_append] at *; grind
  have hin := split_ref hr f R FR (by
      intro x
      simp [count_held, hf, Closer.held, R, List.count_cons, List.count_append]; omega)
    (by intro x hx; simp only [firm, hf, Closer.held, FR, List.mem_cons, List.mem_append] at *; grind) hsub
  have hcore : Core limit s (f :: s.main.flush?) := by
    have := h.core; rw [hf] at this
    exact this.perm (by simp only [Closer.flush?]; exact List.perm_append_comm (l₂ := [f]))
  have hch : s.main.flush?.flatMap Flush.held = s.main.firm := by
    cases s.main <;> simp [Main.flush?, Main.firm]
  have hc1 := flushStep_core hcore hsub hin (by
    intro y hy
    simp only [relevant, hch, FR, List.mem_cons, List.mem_append] at *; exact hy) hs
  have e := flushStep_frame hs
  have emn : s1.main = s.main := by rw [e]
  have edone : s1.done = s.done := by rw [e]
  have efr : s1.frags = s.frags := by rw [e]
  have hd : s.done = true := h.closerDone (by rw [hf]; simp)
  have hw : s1.wire = s.wire := by
    rcases flushStep_wire hs with hw | ⟨x, msgs, hg, _⟩
    · exact hw
    · exact absurd hg (h.closerChecked f (by rw [hf]; simp [Closer.flush?]) x msgs)
  exact
  { core := by
      have := (hc1.perm (List.perm_append_comm)).heap (s' := { s1 with closer := c, ctx := x' }) (fun _ _ => ⟨rfl, rfl, rfl⟩) rfl rfl rfl rfl rfl rfl rfl rfl
      rw [← hm, ← emn] at this; exact this
    frags := by simp only [efr]; exact h.frags
    wireSorted := by simp only [hw]; exact h.wireSorted
    wireMain := by
      intro g hg x hx p hp
      simp only [emn] at hg
      simp only [hw] at hp
      simp only
      rw [flushStep_batch hs x (by
        intro e; subst e
        have := (hcore.not_role (x := x) (by simp [Flush.roles])).2 g hg
        exact this (unsent_roles g x hx))]
      exact h.wireMain g hg x hx p hp
    closerDone := by simp only [edone]; exact fun _ => hd
    closerChecked := by
      intro g hg x msgs e
      simp only [hm] at hg
      cases r with
      | over => simp [FRes.flush?] at hg
      | running g' =>
        simp [FRes.flush?] at hg
        subst hg
        have := ((flushStep_unsent hs).1 x msgs e).1
        rw [hd] at this; simp at this }

/-- Reference counts after a flush that is over. -/
theorem rinv_overMain {s s1 f a em id} (h : RInv s) (hm : s.main = .connecting f)
    (hf : flushStep s f a = .ok (s1, .over em id)) : RInv { s1 with main := .idle } := by
  let R := s.closer.held ++ s.writers.flatMap Writer.held ++ s.users.flatMap User.held
  let FR := s.closer.held ++ s.users.map User.info
  have hsub : ∀ x ∈ FR, x ∈ R := by
    intro x hx
    have := firm_sub_held_users s.users x
    simp only [FR, R, List.mem_append] at *; grind
  have hin := split_ref h f R FR
    (by intro x; simp [count_held, hm, Main.held, R, List.count_cons, List.count_append]; omega)
    (by intro x hx; simp [firm, Main.firm, hm, FR] at *; grind) hsub
  have hr := flushStep_ref hsub hin hf
  have e := flushStep_frame hf
  refine RInv.of _ _ hr ?_ ?_ ?_
  · intro x
    have : (held { s1 with main := .idle }).count x =
        (held { s with main := .idle, cur := s1.cur }).count x := by rw [e]; rfl
    rw [this]
    simp [count_held, Main.held, FRes.held, R, List.count_cons, List.count_append]; omega
  · intro x hx
    have : firm { s1 with main := .idle } = firm { s with main := .idle, cur := s1.cur } := by
      rw [e]; rfl
    rw [this] at hx
    simp [firm, Main.firm, FRes.held, FR] at *; grind
  · rw [e]; exact h.knows

theorem rinv_overCloser {s s1 f a em id} (h : RInv s) (hm : s.closer = .flush f)
    (hf : flushStep s f a = .ok (s1, .over em id)) : RInv { s1 with closer := .over } := by
  let R := s.main.held ++ s.writers.flatMap Writer.held ++ s.users.flatMap User.held
  let FR := s.main.firm ++ s.users.map User.info
  have hsub : ∀ x ∈ FR, x ∈ R := by
    intro x hx
    have := firm_sub_held_users s.users x
    have := main_firm_held s.main x
    simp only [FR, R, List.mem_append] at *; grind
  have hin := split_ref h f R FR
    (by intro x; simp [count_held, hm, Closer.held, R, List.count_cons, List.count_append]; omega)
    (by intro x hx; simp [firm, Closer.held, hm, FR] at *; grind) hsub
  have hr := flushStep_ref hsub hin hf
  have e := flushStep_frame hf
  refine RInv.of _ _ hr ?_ ?_ ?_
  · intro x
    have : (held { s1 with closer := .over }).count x =
        (held { s with closer := .over, cur := s1.cur }).count x := by rw [e]; rfl
    rw [this]
    simp [count_held, Closer.held, FRes.held, R, List.count_cons, List.count_append]; omega
  · intro x hx
    have : firm { s1 with closer := .over } = firm { s with closer := .over, cur := s1.cur } := by
      rw [e]; rfl
    rw [this] at hx
    simp [firm, Closer.held, FRes.held, FR] at *; grind
  · rw [e]; exact h.knows

theorem main_flush_nil {m : Main} (h : m = .before ∨ m = .idle ∨ ∃ x, m = .got x) : m.flush? = [] := by
  rcases h with e | e | ⟨x, e⟩ <;> subst e <;> rfl

theorem dinv_step {cfg : Cfg} {s s' : State} {a : Act} (hfrag : cfg.frag = false) (h : DInv cfg.limit s) (hr : RInv s)
    (hs : step cfg s a = .ok s') : DInv cfg.limit s' := by
  have hr' := rinv_step hr hs
  cases a with
  | write m r => exact dinv_tryAppend h hr hs
  | retry i r =>
    simp only [step] at hs
    split at hs
    · exact dinv_tryAppend (dinv_writers h _) (rinv_retryState hr i) hs
    · exact absurd hs (by simp)
  | refused r =>
    simp only [step] at hs
    split at hs
    · split at hs <;> try (simp at hs; done)
      rename_i s1 n h1
      simp only [Outcome.ok.injEq] at hs; subst hs
      exact dinv_addError h hr h1
    · exact absurd hs (by simp)
  | inc i r =>
    simp only [step] at hs
    split at hs
    · rename_i x m hi
      have hx : x < s.next := writers_knows hr hi x (by simp [Writer.knows])
      split at hs
      · exact dinv_giveUp (dinv_incRef h) ⟨hr.ref.leak hx, hr.knows⟩ hs
      · simp only [Outcome.ok.injEq] at hs; subst hs
        exact dinv_writers (dinv_incRef h) _
    · split at hs
      · simp only [Outcome.ok.injEq] at hs; subst hs
        exact dinv_writers (dinv_incRef h) _
      · simp only [Outcome.ok.injEq] at hs; subst hs
        exact dinv_writers (dinv_incRef h) _
    · exact absurd hs (by simp)
  | poke i handoff r =>
    simp only [step] at hs
    split at hs
    · rename_i x m first hi
      split at hs
      · split at hs
        · exact dinv_giveUp h hr hs
        · simp only [Outcome.ok.injEq] at hs; subst hs; exact dinv_writers h _
      · split at hs
        · split at hs
          · rename_i hidle
            have hg : DInv cfg.limit { s with main := .got x } := dinv_main h _ (by rw [hidle]; rfl)
            split at hs
            · -- the handed reference is not counted yet, but the heap facts are the same
              unfold giveUp at hs
              split at hs <;> try (simp at hs; done)
              rename_i s1 n h1
              simp only [Outcome.ok.injEq] at hs; subst hs
              obtain ⟨s0, _, ha, he, _⟩ := acquireError_ok (s := { s with main := .got x }) hr.ref h1
              have e := ha.eq
              have hn : n ∉ firm s := by
                intro hn
                have := hr.ref.firm n hn
                have h2 := ha.free
                simp only at h2
                rw [h2] at this; simp at this
              refine hg.heap (fun y hy => ?_) (by rw [he, e]) (by rw [he, e]) (by rw [he, e]) (by rw [he, e])
                (by rw [he, e]) (by rw [he, e]) (by rw [he, e]) (by rw [he, e]) (by rw [he, e]) (by rw [he, e])
                (by rw [he, e]; exact id) (by rw [he, e])
              have hyn : y ≠ n := fun e2 => hn (by
                have := relevant_firm _ y hy
                simp [firm, Main.firm, hidle] at this ⊢
                rw [← e2]; exact this)
              rw [he]
              simp only
              rw [setInfo_other hyn, ha.other y hyn]; simp
            · simp only [Outcome.ok.injEq] at hs; subst hs
              exact dinv_writers hg _
          · exact absurd hs (by simp)
        · split at hs
          · exact dinv_giveUp h hr hs
          · simp only [Outcome.ok.injEq] at hs; subst hs; exact dinv_writers h _
    · exact absurd hs (by simp)
  | wake i =>
    simp only [step] at hs
    split at hs
    · split at hs
      · simp only [Outcome.ok.injEq] at hs; subst hs; exact dinv_writers h _
      · exact absurd hs (by simp)
    · exact absurd hs (by simp)
  | tick i =>
    simp only [step] at hs
    split at hs
    · split at hs
      · exact absurd hs (by simp)
      · simp only [Outcome.ok.injEq] at hs; subst hs; exact dinv_writers h _
    · exact absurd hs (by simp)
  | sendNow i =>
    simp only [step] at hs
    split at hs
    · rename_i u hi
      split at hs
      · exact absurd hs (by simp)
      split at hs
      · exact absurd hs (by simp)
      · simp only [Outcome.ok.injEq] at hs; subst hs
        refine (dinv_incRef h).setUsers _ (fun v hv => ?_)
        rcases List.mem_append.1 hv with h1 | h1
        · exact .inl ⟨v, mem_of_eraseIdx h1, rfl, rfl⟩
        · simp at h1; subst h1
          exact .inl ⟨u, List.mem_of_getElem? hi, rfl, rfl⟩
    · exact absurd hs (by simp)
  | sendNowChan i =>
    simp only [step] at hs
    split at hs
    · rename_i u hi
      split at hs
      · split at hs
        · exact absurd hs (by simp)
        split at hs
        · rename_i hidle
          simp only [Outcome.ok.injEq] at hs; subst hs
          have hg : DInv cfg.limit { s with main := .got u.info } := dinv_main h _ (by rw [hidle]; rfl)
          refine hg.setUsers _ (fun v hv => ?_)
          rcases List.mem_append.1 hv with h1 | h1
          · exact .inl ⟨v, mem_of_eraseIdx h1, rfl, rfl⟩
          · simp at h1; subst h1
            exact .inl ⟨u, List.mem_of_getElem? hi, rfl, rfl⟩
        · exact absurd hs (by simp)
      · exact absurd hs (by simp)
    · exact absurd hs (by simp)
  | userRelease i =>
    simp only [step] at hs
    split at hs
    · rename_i u hi
      split at hs
      · exact absurd hs (by simp)
      rename_i hsn
      split at hs
      · let s0 : State := { s with users := s.users.eraseIdx i
                                   rets := s.rets ++ [⟨u.idx, (s.infos u.info).err, (s.infos u.info).closed⟩] }
        have hmem := List.mem_of_getElem? hi
        have h1 : DInv cfg.limit { s with users := s.users.eraseIdx i } :=
          h.setUsers _ (fun v hv => .inl ⟨v, mem_of_eraseIdx hv, rfl, rfl⟩)
        have h2 : DInv cfg.limit s0 :=
          { core := h1.core.setRets _ (fun r hr0 hv k hk => by
              rcases List.mem_append.1 hr0 with h3 | h3
              · exact h.core.rets r h3 hv k hk
              · simp at h3; subst h3
                simp only at hv hk
                obtain ⟨m, h4, h5⟩ := h.core.users u hmem k hk
                exact ⟨_, m, h4, h5 hv⟩)
            frags := h.frags
            wireSorted := h.wireSorted
            wireMain := h.wireMain
            closerDone := h.closerDone
            closerChecked := h.closerChecked }
        have hh : RefOK s0.infos s0.next s0.pool (u.info :: held s0) (firm s) := by
          refine hr.ref.change ?_ (fun y hy => hy) ?_
          · intro y
            have h2 := count_flatMap_erase User.held y s.users i _ hi
            rw [List.count_cons]
            simp [count_held, User.held, hsn, s0, List.count_cons] at *
            omega
          · intro y hy
            have hy' := firm_sub_held s y hy
            rw [← List.count_pos_iff] at hy' ⊢
            have h2 := count_flatMap_erase User.held y s.users i _ hi
            rw [List.count_cons]
            simp [count_held, User.held, hsn, s0, List.count_cons] at *
            omega
        have hrel := release_ok (F' := firm s0) hh (by
          intro y hy
          have := fun z (hz : z ∈ s.users.eraseIdx i) => mem_of_eraseIdx hz
          simp [firm, s0] at *
          grind) (firm_sub_held s0) hs
        have e := hrel.1.eq
        refine h2.heap (fun y hy => ?_) (by rw [e]) (by rw [e]) (by rw [e]) (by rw [e]) (by rw [e]) (by rw [e])
          (by rw [e]) (by rw [e]) (by rw [e]) (by rw [e]) (by rw [e]; exact id) (by rw [e])
        by_cases hyx : y = u.info
        · subst hyx
          have hb := hrel.2.firm _ (relevant_firm s0 _ hy)
          have := hrel.1.busy hb
          rw [this]; simp [s0]
        · rw [hrel.1.other y hyx]; simp [s0]
      · exact absurd hs (by simp)
    · exact absurd hs (by simp)
  | connect r =>
    simp only [step] at hs
    split at hs
    · rename_i hm
      obtain ⟨s1, n, h1, _, rfl, _⟩ := begin_ok hr.ref hs
      obtain ⟨h2, h3, h4, h5, h6, _⟩ := dinv_acquire h hr h1
      exact dinv_beginMain h2 _ (by rw [h5, hm]; rfl) rfl h3 h4
    · exact absurd hs (by simp)
  | timer r =>
    simp only [step] at hs
    split at hs
    · rename_i hm
      obtain ⟨s1, n, h1, _, rfl, _⟩ := begin_ok hr.ref hs
      obtain ⟨h2, h3, h4, h5, h6, _⟩ := dinv_acquire h hr h1
      exact dinv_beginMain h2 _ (by rw [h5, hm]; rfl) rfl h3 h4
    · exact absurd hs (by simp)
  | handle r =>
    simp only [step] at hs
    split at hs
    · rename_i x hm
      split at hs
      · simp only [Outcome.ok.injEq] at hs; subst hs
        exact dinv_main h _ (by rw [hm]; rfl)
      · obtain ⟨s1, n, h1, _, rfl, _⟩ := begin_ok hr.ref hs
        obtain ⟨h2, h3, h4, h5, h6, _⟩ := dinv_acquire h hr h1
        exact dinv_beginMain h2 _ (by rw [h5, hm]; rfl) rfl h3 h4
    · exact absurd hs (by simp)
  | mainFlush a r =>
    simp only [step] at hs
    split at hs
    · rename_i f hm
      have hmf : s.main.flush? = [f] := by rw [hm]; rfl
      split at hs <;> try (simp at hs; done)
      · rename_i s1 f1 hf
        simp only [Outcome.ok.injEq] at hs; subst hs
        exact dinv_mainFlush h hr hmf hf (.connecting f1) rfl s1.last
      · rename_i s1 id hf
        simp only [Outcome.ok.injEq] at hs; subst hs
        exact dinv_mainFlush h hr hmf hf .idle rfl s1.last
      · rename_i s1 id hf
        have h0 : DInv cfg.limit { s1 with main := .idle } := dinv_mainFlush h hr hmf hf .idle rfl s1.last
        have hr0 := rinv_overMain hr hm hf
        obtain ⟨s2, n, h1, _, rfl, _⟩ := begin_ok hr0.ref hs
        obtain ⟨h2, h3, h4, h5, h6, _⟩ := dinv_acquire h0 hr0 h1
        exact dinv_beginMain h2 _ (by rw [h5]; rfl) rfl h3 h4
    · rename_i d f hm
      have hmf : s.main.flush? = [f] := by rw [hm]; rfl
      split at hs <;> try (simp at hs; done)
      · rename_i s1 f1 hf
        simp only [Outcome.ok.injEq] at hs; subst hs
        exact dinv_mainFlush h hr hmf hf (.flush d f1) rfl s1.last
      · rename_i s1 em id hf
        simp only [Outcome.ok.injEq] at hs; subst hs
        exact dinv_mainFlush h hr hmf hf (Main.after d) (by cases d <;> rfl) id
    · exact absurd hs (by simp)
  | mainRelease =>
    simp only [step] at hs
    split at hs
    · rename_i x hm
      let s0 : State := { s with main := .idle }
      have h2 : DInv cfg.limit s0 := dinv_main h _ (by rw [hm]; rfl)
      have hh : RefOK s0.infos s0.next s0.pool (x :: held s0) (firm s0) := by
        refine hr.ref.change ?_ ?_ ?_
        · intro y; rw [List.count_cons]; simp [count_held, s0, hm, Main.held, List.count_cons]; omega
        · intro y hy; simp [firm, Main.firm, s0, hm] at *; exact hy
        · intro y hy; exact List.mem_cons_of_mem _ (firm_sub_held s0 y hy)
      have hrel := release_ok (F' := firm s0) hh (fun y hy => hy) (firm_sub_held s0) hs
      have e := hrel.1.eq
      refine h2.heap (fun y hy => ?_) (by rw [e]) (by rw [e]) (by rw [e]) (by rw [e]) (by rw [e]) (by rw [e])
        (by rw [e]) (by rw [e]) (by rw [e]) (by rw [e]) (by rw [e]; exact id) (by rw [e])
      by_cases hyx : y = x
      · subst hyx
        have hb := hrel.2.firm _ (relevant_firm s0 _ hy)
        have := hrel.1.busy hb
        rw [this]; simp [s0]
      · rw [hrel.1.other y hyx]; simp [s0]
    · exact absurd hs (by simp)
  | mainExit =>
    simp only [step] at hs
    split at hs
    · rename_i hm
      simp only [Outcome.ok.injEq] at hs; subst hs
      exact dinv_main h _ (by rw [hm.1]; rfl)
    · exact absurd hs (by simp)
  | close r =>
    simp only [step] at hs
    split at hs
    · exact absurd hs (by simp)
    · rename_i hd
      have hn : s.closer = .none := by
        cases hc : s.closer with
        | none => rfl
        | _ => exact absurd (h.closerDone (by rw [hc]; simp)) hd
      let s0 : State := { s with done := true }
      have h0 : DInv cfg.limit s0 := h.heap (fun _ _ => ⟨rfl, rfl, rfl⟩) rfl rfl rfl rfl rfl rfl rfl rfl rfl rfl (fun _ => rfl) rfl
      obtain ⟨s1, n, h1, _, rfl, _⟩ := begin_ok (s := s0) hr.ref hs
      obtain ⟨h2, h3, h4, h5, h6, h7⟩ := dinv_acquire h0 ⟨hr.ref, hr.knows⟩ h1
      exact dinv_beginCloser h2 (by rw [h6]; simp [s0, hn, Closer.flush?]) (by rw [h7]) h3 h4
  | closerFlush a r =>
    simp only [step] at hs
    split at hs
    · rename_i f hm
      split at hs <;> try (simp at hs; done)
      · rename_i s1 f1 hf
        simp only [Outcome.ok.injEq] at hs; subst hs
        exact dinv_closerFlush h hr hm hf (.flush f1) rfl s1.ctx
      · rename_i s1 id hf
        simp only [Outcome.ok.injEq] at hs; subst hs
        exact dinv_closerFlush h hr hm hf .over rfl true
      · rename_i s1 id hf
        have h0 : DInv cfg.limit { s1 with closer := .over } := dinv_closerFlush h hr hm hf .over rfl s1.ctx
        have hr0 := rinv_overCloser hr hm hf
        obtain ⟨s2, n, h1, _, rfl, _⟩ := begin_ok hr0.ref hs
        obtain ⟨h2, h3, h4, h5, h6, h7⟩ := dinv_acquire h0 hr0 h1
        exact dinv_beginCloser h2 (by rw [h6]; rfl) (by rw [h7]; exact h0.closerDone (by simp)) h3 h4
    · exact absurd hs (by simp)
  | cancel =>
    simp only [step, Outcome.ok.injEq] at hs; subst hs
    exact h.heap (fun _ _ => ⟨rfl, rfl, rfl⟩) rfl rfl rfl rfl rfl rfl rfl rfl rfl rfl id rfl
  | setDone =>
    simp only [step, Outcome.ok.injEq] at hs; subst hs
    exact h.heap (fun _ _ => ⟨rfl, rfl, rfl⟩) rfl rfl rfl rfl rfl rfl rfl rfl rfl rfl (fun _ => rfl) rfl
  | fragment r =>
    simp [step, hfrag] at hs
  | fragmentDone i er =>
    simp [step, h.frags] at hs
  | gc x =>
    simp only [step] at hs
    split at hs
    · simp only [Outcome.ok.injEq] at hs; subst hs
      exact h.heap (fun _ _ => ⟨rfl, rfl, rfl⟩) rfl rfl rfl rfl rfl rfl rfl rfl rfl rfl id rfl
    · exact absurd hs (by simp)

/-- Every `SendInfo` whose channel is open is the current one or the subject of a flush. -/
def OpenRole (s : State) : Prop :=
  ∀ x, (s.infos x).closed = false →
    x ∈ s.cur :: (s.main.flush? ++ s.closer.flush?).flatMap Flush.roles

theorem openRole_init : OpenRole State.init := by
  intro x hb
  by_cases e : x = 0
  · subst e; simp [State.init]
  · simp [State.init, setInfo_other e] at hb

theorem OpenRole.of {s s' : State} (h : OpenRole s)
    (hr : ∀ x, x ∈ s.cur :: (s.main.flush? ++ s.closer.flush?).flatMap Flush.roles →
      (s'.infos x).closed = false → x ∈ s'.cur :: (s'.main.flush? ++ s'.closer.flush?).flatMap Flush.roles)
    (hi : ∀ x, (s'.infos x).closed = false →
      (s.infos x).closed = false ∨
      x ∈ s'.cur :: (s'.main.flush? ++ s'.closer.flush?).flatMap Flush.roles) : OpenRole s' := by
  intro x hc
  rcases hi x hc with h1 | h1
  · exact hr x (h x h1) hc
  · exact h1

/-- Only the heap changed. -/
theorem OpenRole.heap {s s' : State} (h : OpenRole s) (hcur : s'.cur = s.cur) (hm : s'.main.flush? = s.main.flush?)
    (hc : s'.closer.flush? = s.closer.flush?)
    (hi : ∀ x, (s'.infos x).closed = false →
      (s.infos x).closed = false) : OpenRole s' :=
  h.of (fun x hx _ => by rw [hcur, hm, hc]; exact hx) (fun x hcl => .inl (hi x hcl))

theorem openRole_acquireError {s s' : State} {r n} (h : OpenRole s) (hr : RInv s) (ha : acquireError s r = .ok (s', n)) :
    OpenRole s' := by
  obtain ⟨s0, _, ha, he, _⟩ := acquireError_ok hr.ref ha
  have e := ha.eq
  refine h.heap (by rw [he, e]) (by rw [he, e]) (by rw [he, e]) (fun x hc => ?_)
  by_cases hx : x = n
  · subst hx; rw [he] at hc; simp at hc
  · rw [he] at hc
    simp only at hc
    rw [setInfo_other hx, ha.other x hx] at hc
    exact hc

theorem openRole_release {s s' : State} {x : Nat} (h : OpenRole s) (hs : release s x = .ok s') : OpenRole s' := by
  unfold release at hs
  simp only at hs
  repeat' split at hs
  all_goals try (simp at hs; done)
  all_goals
    simp only [Outcome.ok.injEq] at hs; subst hs
    refine h.heap rfl rfl rfl (fun y hc => ?_)
    by_cases e : y = x
    · subst e
      simp only [setInfo_same] at hc
      exact hc
    · simp only [setInfo_other e] at hc; exact hc

theorem openRole_set {s s' : State} {x : Nat} {v : Info} (h : OpenRole s) (hi : s'.infos = setInfo s.infos x v)
    (hc : v.closed = false → (s.infos x).closed = false) (hcur : s'.cur = s.cur)
    (hm : s'.main.flush? = s.main.flush?) (hcl : s'.closer.flush? = s.closer.flush?) : OpenRole s' := by
  refine h.heap hcur hm hcl (fun y hc' => ?_)
  rw [hi] at hc'
  by_cases e : y = x
  · subst e; simp at hc'; exact hc hc'
  · rw [setInfo_other e] at hc'; exact hc'

theorem openRole_ctl {s s' : State} (h : OpenRole s) (hi : s'.infos = s.infos) (hcur : s'.cur = s.cur)
    (hm : s'.main.flush? = s.main.flush?) (hcl : s'.closer.flush? = s.closer.flush?) : OpenRole s' :=
  h.heap hcur hm hcl (fun y hc => by rw [hi] at hc; exact hc)

theorem openRole_begin {s s1 s' : State} {r : Option Nat} {n : Nat} (h : OpenRole s) (hr : RInv s)
    (ha : acquire s r = .ok (s1, n)) (hi : s'.infos = s1.infos) (hcur : s'.cur = s1.cur)
    (hsub : ∀ f ∈ s.main.flush? ++ s.closer.flush?, f ∈ s'.main.flush? ++ s'.closer.flush?)
    (hn : Flush.acquired n ∈ s'.main.flush? ++ s'.closer.flush?) : OpenRole s' := by
  obtain ⟨ha, _⟩ := acquire_ok hr.ref ha
  have e := ha.eq
  have hc : s1.cur = s.cur := by rw [e]
  refine h.of (fun x hx _ => ?_) (fun x hcl => ?_)
  · rw [hcur, hc]
    simp only [List.mem_cons, List.mem_flatMap] at *
    rcases hx with h1 | ⟨f, hf, hx⟩
    · exact .inl h1
    · exact .inr ⟨f, hsub f hf, hx⟩
  · by_cases hx : x = n
    · subst hx
      exact .inr (List.mem_cons_of_mem _ (List.mem_flatMap.2 ⟨_, hn, by simp [Flush.roles]⟩))
    · rw [hi, ha.other x hx] at hcl
      exact .inl hcl

/-- A flush step, with the other flushes `fl`. -/
theorem openRole_flush {s s1 s' : State} {f : Flush} {a : FAct} {r : FRes} {fl : List Flush} (h : OpenRole s)
    (hfl : ∀ g, g ∈ s.main.flush? ++ s.closer.flush? → g = f ∨ g ∈ fl)
    (hfl' : ∀ g, g ∈ r.flush? ++ fl → g ∈ s'.main.flush? ++ s'.closer.flush?)
    (hs : flushStep s f a = .ok (s1, r)) (hi : s'.infos = s1.infos) (hcur : s'.cur = s1.cur) : OpenRole s' := by
  have key : ∀ x, (s1.infos x).closed = false →
      x = s1.cur ∨ (∃ g ∈ r.flush? ++ fl, x ∈ g.roles) := by
    intro x hc
    have base : (s.infos x).closed = false →
        x = s.cur ∨ x ∈ f.roles ∨ ∃ g ∈ fl, x ∈ g.roles := by
      intro h2
      have h3 := h x h2
      simp only [List.mem_cons, List.mem_flatMap] at h3
      rcases h3 with h4 | ⟨g, hg, hx⟩
      · exact .inl h4
      · rcases hfl g hg with e | e
        · subst e; exact .inr (.inl hx)
        · exact .inr (.inr ⟨g, e, hx⟩)
    have others : (∃ g ∈ fl, x ∈ g.roles) → (∃ g ∈ r.flush? ++ fl, x ∈ g.roles) :=
      fun ⟨g, hg, hx⟩ => ⟨g, List.mem_append.2 (.inr hg), hx⟩
    unfold flushStep at hs
    split at hs
    · rename_i n
      simp only [Outcome.ok.injEq, Prod.mk.injEq] at hs
      obtain ⟨rfl, rfl⟩ := hs
      have hc' : (s.infos x).closed = false := by
        by_cases e : x = n
        · subst e; simpa using hc
        · simpa [setInfo_other e] using hc
      rcases base hc' with h1 | h1 | h1
      · exact .inr ⟨.swapped s.cur s.buf, by simp [FRes.flush?], by simp [Flush.roles, h1]⟩
      · left; simpa [Flush.roles] using h1
      · exact .inr (others h1)
    · rename_i y msgs
      split at hs
      · exact absurd hs (by simp)
      · simp only [Outcome.ok.injEq, Prod.mk.injEq] at hs
        obtain ⟨rfl, rfl⟩ := hs
        have hc' : (s.infos x).closed = false := by
          by_cases e : x = y
          · subst e; simpa [setResult] using hc
          · simpa [setResult, setInfo_other e] using hc
        rcases base hc' with h1 | h1 | h1
        · exact .inl h1
        · exact .inr ⟨.wrote y msgs false, by simp [FRes.flush?], by simpa [Flush.roles] using h1⟩
        · exact .inr (others h1)
    · rename_i y msgs
      split at hs
      · exact absurd hs (by simp)
      · split at hs
        · simp only [Outcome.ok.injEq, Prod.mk.injEq] at hs
          obtain ⟨rfl, rfl⟩ := hs
          have hc' : (s.infos x).closed = false := by
            by_cases e : x = y
            · subst e; simpa [setResult] using hc
            · simpa [setResult, setInfo_other e] using hc
          rcases base hc' with h1 | h1 | h1
          · exact .inl h1
          · exact .inr ⟨.wrote y msgs false, by simp [FRes.flush?], by simpa [Flush.roles] using h1⟩
          · exact .inr (others h1)
        · simp only [Outcome.ok.injEq, Prod.mk.injEq] at hs
          obtain ⟨rfl, rfl⟩ := hs
          rcases base hc with h1 | h1 | h1
          · exact .inl h1
          · exact .inr ⟨.checked y msgs, by simp [FRes.flush?], by simpa [Flush.roles] using h1⟩
          · exact .inr (others h1)
    · rename_i y msgs ok
      simp only [Outcome.ok.injEq, Prod.mk.injEq] at hs
      obtain ⟨rfl, rfl⟩ := hs
      have hc' : (s.infos x).closed = false := by
        by_cases e : x = y
        · subst e; simpa [setResult] using hc
        · simpa [setResult, setInfo_other e] using hc
      rcases base hc' with h1 | h1 | h1
      · exact .inl h1
      · exact .inr ⟨.wrote y msgs ok, by simp [FRes.flush?], by simpa [Flush.roles] using h1⟩
      · exact .inr (others h1)
    · rename_i y msgs
      split at hs
      · exact absurd hs (by simp)
      · split at hs
        · exact absurd hs (by simp)
        · simp only [Outcome.ok.injEq, Prod.mk.injEq] at hs
          obtain ⟨rfl, rfl⟩ := hs
          by_cases e : x = y
          · subst e; simp at hc
          · simp only [setInfo_other e] at hc
            rcases base hc with h1 | h1 | h1
            · exact .inl h1
            · simp [Flush.roles] at h1; exact absurd h1 e
            · exact .inr (others h1)
    · rename_i y msgs ok
      split at hs
      · exact absurd hs (by simp)
      · simp only [Outcome.ok.injEq, Prod.mk.injEq] at hs
        obtain ⟨rfl, rfl⟩ := hs
        by_cases e : x = y
        · subst e; simp at hc
        · simp only [setInfo_other e] at hc
          rcases base hc with h1 | h1 | h1
          · exact .inl h1
          · simp [Flush.roles] at h1; exact absurd h1 e
          · exact .inr (others h1)
    · rename_i y msgs
      split at hs <;> try (simp at hs; done)
      rename_i s2 hrel
      simp only [Outcome.ok.injEq, Prod.mk.injEq] at hs
      obtain ⟨rfl, rfl⟩ := hs
      have h2 := openRole_release h hrel x hc
      have e1 : s2.cur = s.cur ∧ s2.main = s.main ∧ s2.closer = s.closer := by
        unfold release at hrel
        simp only at hrel
        repeat' split at hrel
        all_goals try (simp at hrel; done)
        all_goals (simp only [Outcome.ok.injEq] at hrel; subst hrel; exact ⟨rfl, rfl, rfl⟩)
      rw [e1.1, e1.2.1, e1.2.2] at h2
      simp only [List.mem_cons, List.mem_flatMap] at h2
      rcases h2 with h4 | ⟨g, hg, hx⟩
      · exact .inl (by rw [e1.1]; exact h4)
      · rcases hfl g hg with e | e
        · subst e; simp [Flush.roles] at hx
        · exact .inr (others ⟨g, e, hx⟩)
    · exact absurd hs (by simp)
  intro x hc
  rw [hi] at hc
  rw [hcur]
  simp only [List.mem_cons, List.mem_flatMap]
  rcases key x hc with h1 | ⟨g, hg, hx⟩
  · exact .inl h1
  · exact .inr ⟨g, hfl' g hg, hx⟩

theorem openRole_tryAppend {cfg : Cfg} {s s' : State} {m r} (h : OpenRole s) (hr : RInv s)
    (hs : tryAppend cfg s m r = .ok s') : OpenRole s' := by
  unfold tryAppend at hs
  split at hs
  · exact absurd hs (by simp)
  split at hs
  · split at hs
    · split at hs <;> try (simp at hs; done)
      rename_i s1 n h1
      simp only [Outcome.ok.injEq] at hs; subst hs
      exact openRole_ctl (openRole_acquireError h hr h1) rfl rfl rfl rfl
    · simp only [Outcome.ok.injEq] at hs; subst hs
      exact openRole_ctl h rfl rfl rfl rfl
  · simp only at hs
    split at hs
    · exact absurd hs (by simp)
    · simp only [Outcome.ok.injEq] at hs; subst hs
      exact openRole_set (x := s.cur) h rfl id rfl rfl rfl

theorem openRole_giveUp {s s' : State} {i m r} (h : OpenRole s) {H F : List Nat}
    (hr : RefOK s.infos s.next s.pool H F) (hs : giveUp s i m r = .ok s') : OpenRole s' := by
  unfold giveUp at hs
  split at hs <;> try (simp at hs; done)
  rename_i s1 n h1
  simp only [Outcome.ok.injEq] at hs; subst hs
  obtain ⟨s0, _, ha, he, _⟩ := acquireError_ok hr h1
  have e := ha.eq
  refine h.heap (by rw [he, e]) (by rw [he, e]) (by rw [he, e]) (fun x hc => ?_)
  by_cases hx : x = n
  · subst hx; rw [he] at hc; simp at hc
  · rw [he] at hc
    simp only at hc
    rw [setInfo_other hx, ha.other x hx] at hc
    exact hc

theorem openRole_step {cfg : Cfg} {s s' : State} {a : Act} (hfrag : cfg.frag = false) (h : OpenRole s)
    (hd : DInv cfg.limit s) (hr : RInv s) (hs : step cfg s a = .ok s') : OpenRole s' := by
  have hinc : ∀ x, OpenRole (incRef s x) := fun x => openRole_set (x := x) h rfl id rfl rfl rfl
  cases a with
  | write m r => exact openRole_tryAppend h hr hs
  | retry i r =>
    simp only [step] at hs
    split at hs
    · have h1 : OpenRole { s with writers := s.writers.eraseIdx i } := openRole_ctl h rfl rfl rfl rfl
      exact openRole_tryAppend h1 (rinv_retryState hr i) hs
    · exact absurd hs (by simp)
  | refused r =>
    simp only [step] at hs
    split at hs
    · split at hs <;> try (simp at hs; done)
      rename_i s1 n h1
      simp only [Outcome.ok.injEq] at hs; subst hs
      exact openRole_ctl (openRole_acquireError h hr h1) rfl rfl rfl rfl
    · exact absurd hs (by simp)
  | inc i r =>
    simp only [step] at hs
    split at hs
    · rename_i x m hi
      have hx : x < s.next := writers_knows hr hi x (by simp [Writer.knows])
      split at hs
      · exact openRole_giveUp (hinc x) (hr.ref.leak hx) hs
      · simp only [Outcome.ok.injEq] at hs; subst hs
        exact openRole_ctl (hinc x) rfl rfl rfl rfl
    · rename_i x m hi
      split at hs
      · simp only [Outcome.ok.injEq] at hs; subst hs
        exact openRole_ctl (hinc x) rfl rfl rfl rfl
      · simp only [Outcome.ok.injEq] at hs; subst hs
        exact openRole_ctl (hinc x) rfl rfl rfl rfl
    · exact absurd hs (by simp)
  | poke i handoff r =>
    simp only [step] at hs
    split at hs
    · rename_i x m first hi
      split at hs
      · split at hs
        · exact openRole_giveUp h hr.ref hs
        · simp only [Outcome.ok.injEq] at hs; subst hs; exact openRole_ctl h rfl rfl rfl rfl
      · split at hs
        · split at hs
          · rename_i hidle
            have hg : OpenRole { s with main := .got x } := openRole_ctl h rfl rfl (by rw [hidle]; rfl) rfl
            split at hs
            · exact openRole_giveUp hg hr.ref hs
            · simp only [Outcome.ok.injEq] at hs; subst hs
              exact openRole_ctl hg rfl rfl rfl rfl
          · exact absurd hs (by simp)
        · split at hs
          · exact openRole_giveUp h hr.ref hs
          · simp only [Outcome.ok.injEq] at hs; subst hs; exact openRole_ctl h rfl rfl rfl rfl
    · exact absurd hs (by simp)
  | wake i =>
    simp only [step] at hs
    split at hs
    · split at hs
      · simp only [Outcome.ok.injEq] at hs; subst hs; exact openRole_ctl h rfl rfl rfl rfl
      · exact absurd hs (by simp)
    · exact absurd hs (by simp)
  | tick i =>
    simp only [step] at hs
    split at hs
    · split at hs
      · exact absurd hs (by simp)
      · simp only [Outcome.ok.injEq] at hs; subst hs; exact openRole_ctl h rfl rfl rfl rfl
    · exact absurd hs (by simp)
  | sendNow i =>
    simp only [step] at hs
    split at hs
    · rename_i u hi
      split at hs
      · exact absurd hs (by simp)
      split at hs
      · exact absurd hs (by simp)
      · simp only [Outcome.ok.injEq] at hs; subst hs
        exact openRole_ctl (hinc u.info) rfl rfl rfl rfl
    · exact absurd hs (by simp)
  | sendNowChan i =>
    simp only [step] at hs
    split at hs
    · rename_i u hi
      split at hs
      · split at hs
        · exact absurd hs (by simp)
        split at hs
        · rename_i hidle
          simp only [Outcome.ok.injEq] at hs; subst hs
          exact openRole_ctl h rfl rfl (by rw [hidle]; rfl) rfl
        · exact absurd hs (by simp)
      · exact absurd hs (by simp)
    · exact absurd hs (by simp)
  | userRelease i =>
    simp only [step] at hs
    split at hs
    · split at hs
      · exact absurd hs (by simp)
      split at hs
      · refine openRole_release ?_ hs
        exact openRole_ctl h rfl rfl rfl rfl
      · exact absurd hs (by simp)
    · exact absurd hs (by simp)
  | connect r =>
    simp only [step] at hs
    split at hs
    · rename_i hm
      obtain ⟨s1, n, h1, ha, rfl, _⟩ := begin_ok hr.ref hs
      have e := ha.eq
      have ec : s1.closer = s.closer := by rw [e]
      exact openRole_begin h hr h1 rfl rfl (by simp [hm, Main.flush?, ec]; grind) (by simp [Main.flush?])
    · exact absurd hs (by simp)
  | timer r =>
    simp only [step] at hs
    split at hs
    · rename_i hm
      obtain ⟨s1, n, h1, ha, rfl, _⟩ := begin_ok hr.ref hs
      have e := ha.eq
      have ec : s1.closer = s.closer := by rw [e]
      exact openRole_begin h hr h1 rfl rfl (by simp [hm, Main.flush?, ec]; grind) (by simp [Main.flush?])
    · exact absurd hs (by simp)
  | handle r =>
    simp only [step] at hs
    split at hs
    · rename_i x hm
      split at hs
      · simp only [Outcome.ok.injEq] at hs; subst hs
        exact openRole_ctl h rfl rfl (by rw [hm]; rfl) rfl
      · obtain ⟨s1, n, h1, ha, rfl, _⟩ := begin_ok hr.ref hs
        have e := ha.eq
        have ec : s1.closer = s.closer := by rw [e]
        exact openRole_begin h hr h1 rfl rfl (by simp [hm, Main.flush?, ec]; grind) (by simp [Main.flush?])
    · exact absurd hs (by simp)
  | mainFlush a r =>
    simp only [step] at hs
    split at hs
    · rename_i f hm
      split at hs <;> try (simp at hs; done)
      · rename_i s1 f1 hf
        simp only [Outcome.ok.injEq] at hs; subst hs
        have e := flushStep_frame hf
        have ec : s1.closer = s.closer := by rw [e]
        exact openRole_flush (fl := s.closer.flush?) h (by simp [hm, Main.flush?])
          (by simp [Main.flush?, FRes.flush?, ec]) hf rfl rfl
      · rename_i s1 id hf
        simp only [Outcome.ok.injEq] at hs; subst hs
        have e := flushStep_frame hf
        have ec : s1.closer = s.closer := by rw [e]
        exact openRole_flush (fl := s.closer.flush?) h (by simp [hm, Main.flush?])
          (by simp [Main.flush?, FRes.flush?, ec]) hf rfl rfl
      · rename_i s1 id hf
        have e := flushStep_frame hf
        have ec : s1.closer = s.closer := by rw [e]
        have h0 : OpenRole { s1 with main := .idle } :=
          openRole_flush (fl := s.closer.flush?) h (by simp [hm, Main.flush?])
            (by simp [Main.flush?, FRes.flush?, ec]) hf rfl rfl
        have hr0 := rinv_overMain hr hm hf
        obtain ⟨s2, n, h1, ha, rfl, _⟩ := begin_ok hr0.ref hs
        have e2 := ha.eq
        have ec2 : s2.closer = s1.closer := by rw [e2]
        exact openRole_begin h0 hr0 h1 rfl rfl (by simp [Main.flush?, ec2]; grind) (by simp [Main.flush?])
    · rename_i d f hm
      split at hs <;> try (simp at hs; done)
      · rename_i s1 f1 hf
        simp only [Outcome.ok.injEq] at hs; subst hs
        have e := flushStep_frame hf
        have ec : s1.closer = s.closer := by rw [e]
        exact openRole_flush (fl := s.closer.flush?) h (by simp [hm, Main.flush?])
          (by simp [Main.flush?, FRes.flush?, ec]) hf rfl rfl
      · rename_i s1 em id hf
        simp only [Outcome.ok.injEq] at hs; subst hs
        have e := flushStep_frame hf
        have ec : s1.closer = s.closer := by rw [e]
        exact openRole_flush (fl := s.closer.flush?) h (by simp [hm, Main.flush?])
          (by simp [FRes.flush?, ec]; grind) hf rfl rfl
    · exact absurd hs (by simp)
  | mainRelease =>
    simp only [step] at hs
    split at hs
    · rename_i x hm
      refine openRole_release ?_ hs
      exact openRole_ctl h rfl rfl (by rw [hm]; rfl) rfl
    · exact absurd hs (by simp)
  | mainExit =>
    simp only [step] at hs
    split at hs
    · rename_i hm
      simp only [Outcome.ok.injEq] at hs; subst hs
      exact openRole_ctl h rfl rfl (by rw [hm.1]; rfl) rfl
    · exact absurd hs (by simp)
  | close r =>
    simp only [step] at hs
    split at hs
    · exact absurd hs (by simp)
    · rename_i hdn
      have hn : s.closer = .none := by
        cases hc : s.closer with
        | none => rfl
        | _ => exact absurd (hd.closerDone (by rw [hc]; simp)) hdn
      let s0 : State := { s with done := true }
      have h0 : OpenRole s0 := openRole_ctl h rfl rfl rfl rfl
      obtain ⟨s1, n, h1, ha, rfl, _⟩ := begin_ok (s := s0) hr.ref hs
      have e := ha.eq
      have ec : s1.main = s.main := by rw [e]
      exact openRole_begin h0 ⟨hr.ref, hr.knows⟩ h1 rfl rfl (by simp [s0, hn, Closer.flush?, ec]; grind) (by simp [Closer.flush?])
  | closerFlush a r =>
    simp only [step] at hs
    split at hs
    · rename_i f hm
      split at hs <;> try (simp at hs; done)
      · rename_i s1 f1 hf
        simp only [Outcome.ok.injEq] at hs; subst hs
        have e := flushStep_frame hf
        have ec : s1.main = s.main := by rw [e]
        exact openRole_flush (fl := s.main.flush?) h (by simp [hm, Closer.flush?]; grind)
          (by simp [Closer.flush?, FRes.flush?, ec]; grind) hf rfl rfl
      · rename_i s1 id hf
        simp only [Outcome.ok.injEq] at hs; subst hs
        have e := flushStep_frame hf
        have ec : s1.main = s.main := by rw [e]
        exact openRole_flush (fl := s.main.flush?) h (by simp [hm, Closer.flush?]; grind)
          (by simp [Closer.flush?, FRes.flush?, ec]) hf rfl rfl
      · rename_i s1 id hf
        have e := flushStep_frame hf
        have ec : s1.main = s.main := by rw [e]
        have h0 : OpenRole { s1 with closer := .over } :=
          openRole_flush (fl := s.main.flush?) h (by simp [hm, Closer.flush?]; grind)
            (by simp [Closer.flush?, FRes.flush?, ec]) hf rfl rfl
        have hr0 := rinv_overCloser hr hm hf
        obtain ⟨s2, n, h1, ha, rfl, _⟩ := begin_ok hr0.ref hs
        have e2 := ha.eq
        have ec2 : s2.main = s1.main := by rw [e2]
        exact openRole_begin h0 hr0 h1 rfl rfl (by simp [Closer.flush?, ec2]; grind) (by simp [Closer.flush?])
    · exact absurd hs (by simp)
  | cancel =>
    simp only [step, Outcome.ok.injEq] at hs; subst hs
    exact openRole_ctl h rfl rfl rfl rfl
  | setDone =>
    simp only [step, Outcome.ok.injEq] at hs; subst hs
    exact openRole_ctl h rfl rfl rfl rfl
  | fragment r => simp [step, hfrag] at hs
  | fragmentDone i er => simp [step, hd.frags] at hs
  | gc x =>
    simp only [step] at hs
    split at hs
    · simp only [Outcome.ok.injEq] at hs; subst hs
      exact openRole_ctl h rfl rfl rfl rfl
    · exact absurd hs (by simp)

theorem inv_reachable {cfg : Cfg} {s : State} (hr : Reachable cfg s) :
    RInv s ∧ (cfg.frag = false → DInv cfg.limit s ∧ OpenRole s) := by
  induction hr with
  | init => exact ⟨rinv_init, fun _ => ⟨dinv_init _, openRole_init⟩⟩
  | step a _ hs ih =>
    exact ⟨rinv_step ih.1 hs, fun hf => ⟨dinv_step hf (ih.2 hf).1 ih.1 hs, openRole_step hf (ih.2 hf).2 (ih.2 hf).1 ih.1 hs⟩⟩

/-! ### Possible panics -/

theorem flush_hyps {s : State} (h : RInv s) {f : Flush} (hf : f ∈ s.main.flush? ++ s.closer.flush?) :
    ∃ R FR : List Nat, (∀ x ∈ FR, x ∈ R) ∧
      RefOK s.infos s.next s.pool (s.cur :: (f.held ++ R)) (s.cur :: (f.held ++ FR)) := by
  rcases List.mem_append.1 hf with h1 | h1
  · refine ⟨(match s.main with | .flush d _ => d.toList | _ => []) ++ (s.closer.held ++ s.writers.flatMap Writer.held ++ s.users.flatMap User.held), [], by simp, ?_⟩
    refine split_ref h f _ _ ?_ ?_ (by simp)
    · intro x
      cases hm : s.main <;> simp [hm, Main.flush?] at h1 <;> subst h1 <;>
        simp [count_held, hm, Main.held, List.count_cons, List.count_append] <;> omega
    · intro x hx
      cases hm : s.main <;> simp [hm, Main.flush?] at h1 <;> subst h1 <;>
        simp [firm, hm, Main.firm] at * <;> grind
  · refine ⟨s.main.held ++ s.writers.flatMap Writer.held ++ s.users.flatMap User.held, [], by simp, ?_⟩
    refine split_ref h f _ _ ?_ ?_ (by simp)
    · intro x
      cases hm : s.closer <;> simp [hm, Closer.flush?] at h1
      subst h1
      simp [count_held, hm, Closer.held, List.count_cons, List.count_append]; omega
    · intro x hx
      cases hm : s.closer <;> simp [hm, Closer.flush?] at h1
      subst h1
      simp [firm, hm, Closer.held] at *; grind

/-- Which panics are possible, and where. -/
theorem step_err {cfg : Cfg} {s : State} {a : Act} {e : Crash} (h : RInv s) (hs : step cfg s a = .err e) :
    (e = .unfinishedRelease ∧ (a = .mainRelease ∨ ∃ f ∈ s.main.flush? ++ s.closer.flush?, ∃ x msgs, f = .ended x msgs ∧
      (s.infos x).closed = false)) ∨
    (e = .closedChannel ∧ ∃ i, a = .sendNowChan i) ∨
    (e = .doubleClose ∧ ((∃ i b, a = .fragmentDone i b) ∨ ∃ f ∈ s.main.flush? ++ s.closer.flush?, ∃ x ∈ f.roles,
      (s.infos x).closed = true)) := by
  have hae : ∀ r e, acquireError s r ≠ .err e := fun r e => (acquireError_no_err h.ref).1
  cases a with
  | write m r => exact absurd hs (tryAppend_err h e).1
  | retry i r =>
    simp only [step] at hs
    split at hs
    · exact absurd hs (tryAppend_err (rinv_retryState h i) e).1
    · exact absurd hs (by simp)
  | refused r =>
    simp only [step] at hs
    split at hs
    · split at hs <;> try (simp at hs; done)
      rename_i h1
      exact absurd h1 (hae _ _)
    · exact absurd hs (by simp)
  | inc i r =>
    simp only [step] at hs
    split at hs
    · rename_i x m hi
      have hx : x < s.next := writers_knows h hi x (by simp [Writer.knows])
      split at hs
      · exact absurd hs (giveUp_err (s := incRef s x) (h.ref.leak hx)).1
      · exact absurd hs (by simp)
    · split at hs <;> exact absurd hs (by simp)
    · exact absurd hs (by simp)
  | poke i handoff r =>
    simp only [step] at hs
    split at hs
    · rename_i x m first hi
      have hg : ∀ e, giveUp s i m r ≠ .err e := fun e => (giveUp_err h.ref).1
      split at hs
      · split at hs
        · exact absurd hs (hg e)
        · exact absurd hs (by simp)
      · split at hs
        · split at hs
          · split at hs
            · exact absurd hs (giveUp_err (s := { s with main := .got x }) h.ref).1
            · exact absurd hs (by simp)
          · exact absurd hs (by simp)
        · split at hs
          · exact absurd hs (hg e)
          · exact absurd hs (by simp)
    · exact absurd hs (by simp)
  | wake i =>
    simp only [step] at hs
    split at hs
    · split at hs <;> exact absurd hs (by simp)
    · exact absurd hs (by simp)
  | tick i =>
    simp only [step] at hs
    split at hs
    · split at hs <;> exact absurd hs (by simp)
    · exact absurd hs (by simp)
  | sendNow i =>
    simp only [step] at hs
    split at hs
    · rename_i u hi
      split at hs
      · exact absurd hs (by simp)
      split at hs
      · rename_i h1
        have hm : u.info ∈ held s := firm_sub_held s _ (by
          simp only [firm, List.mem_cons, List.mem_append, List.mem_map]
          exact .inr (.inr ⟨u, List.mem_of_getElem? hi, rfl⟩))
        have h2 := h.ref.le u.info
        have h3 : 0 < (held s).count u.info := List.count_pos_iff.2 hm
        omega
      · exact absurd hs (by simp)
    · exact absurd hs (by simp)
  | sendNowChan i =>
    simp only [step] at hs
    split at hs
    · split at hs
      · split at hs
        · simp only [Outcome.err.injEq] at hs
          exact .inr (.inl ⟨hs.symm, i, rfl⟩)
        · split at hs <;> exact absurd hs (by simp)
      · exact absurd hs (by simp)
    · exact absurd hs (by simp)
  | userRelease i =>
    simp only [step] at hs
    split at hs
    · rename_i u hi
      split at hs
      · exact absurd hs (by simp)
      rename_i hsn
      split at hs
      · rename_i hfin
        let s0 : State := { s with users := s.users.eraseIdx i
                                   rets := s.rets ++ [⟨u.idx, (s.infos u.info).err, (s.infos u.info).closed⟩] }
        have hh : RefOK s0.infos s0.next s0.pool (u.info :: held s0) (firm s) := by
          refine h.ref.change ?_ (fun y hy => hy) ?_
          · intro y
            have h2 := count_flatMap_erase User.held y s.users i _ hi
            rw [List.count_cons]
            simp [count_held, User.held, hsn, s0, List.count_cons] at *
            omega
          · intro y hy
            have hy' := firm_sub_held s y hy
            rw [← List.count_pos_iff] at hy' ⊢
            have h2 := count_flatMap_erase User.held y s.users i _ hi
            rw [List.count_cons]
            simp [count_held, User.held, hsn, s0, List.count_cons] at *
            omega
        have := release_err hh hs
        simp only [s0] at this
        rw [this.2.1, this.2.2] at hfin; simp at hfin
      · exact absurd hs (by simp)
    · exact absurd hs (by simp)
  | connect r =>
    simp only [step] at hs
    split at hs
    · exact absurd hs (begin_err h.ref).1
    · exact absurd hs (by simp)
  | timer r =>
    simp only [step] at hs
    split at hs
    · exact absurd hs (begin_err h.ref).1
    · exact absurd hs (by simp)
  | handle r =>
    simp only [step] at hs
    split at hs
    · split at hs
      · exact absurd hs (by simp)
      · exact absurd hs (begin_err h.ref).1
    · exact absurd hs (by simp)
  | mainFlush a r =>
    have fin : ∀ f, f ∈ s.main.flush? ++ s.closer.flush? → flushStep s f a = .err e →
        (e = .doubleClose ∧ ∃ x msgs, (f = .swapped x msgs ∨ ∃ ok, f = .wrote x msgs ok) ∧ (s.infos x).closed = true) ∨
        (e = .unfinishedRelease ∧ ∃ x msgs, f = .ended x msgs ∧ (s.infos x).closed = false) := fun f hf h1 => by
      obtain ⟨R, FR, h2, h3⟩ := flush_hyps h hf
      exact flushStep_err h2 h3 h1
    simp only [step] at hs
    split at hs
    · rename_i f hm
      have hfm : f ∈ s.main.flush? ++ s.closer.flush? := by simp [hm, Main.flush?]
      split at hs <;> try (simp at hs; done)
      · rename_i s1 id hf
        exact absurd hs (begin_err (rinv_overMain h hm hf).ref).1
      · rename_i e' hf
        simp only [Outcome.err.injEq] at hs; subst hs
        rcases fin f hfm hf with ⟨h1, x, msgs, h2, h3⟩ | ⟨h1, x, msgs, h2, h3⟩
        · exact .inr (.inr ⟨h1, .inr ⟨f, hfm, x, by rcases h2 with h2 | ⟨_, h2⟩ <;> simp [h2, Flush.roles], h3⟩⟩)
        · exact .inl ⟨h1, .inr ⟨f, hfm, x, msgs, h2, h3⟩⟩
    · rename_i d f hm
      have hfm : f ∈ s.main.flush? ++ s.closer.flush? := by simp [hm, Main.flush?]
      split at hs <;> try (simp at hs; done)
      rename_i e' hf
      simp only [Outcome.err.injEq] at hs; subst hs
      rcases fin f hfm hf with ⟨h1, x, msgs, h2, h3⟩ | ⟨h1, x, msgs, h2, h3⟩
      · exact .inr (.inr ⟨h1, .inr ⟨f, hfm, x, by rcases h2 with h2 | ⟨_, h2⟩ <;> simp [h2, Flush.roles], h3⟩⟩)
      · exact .inl ⟨h1, .inr ⟨f, hfm, x, msgs, h2, h3⟩⟩
    · exact absurd hs (by simp)
  | mainRelease =>
    simp only [step] at hs
    split at hs
    · rename_i x hm
      let s0 : State := { s with main := .idle }
      have hh : RefOK s0.infos s0.next s0.pool (x :: held s0) (firm s0) := by
        refine h.ref.change ?_ ?_ ?_
        · intro y; rw [List.count_cons]; simp [count_held, s0, hm, Main.held, List.count_cons]; omega
        · intro y hy; simp [firm, Main.firm, s0, hm] at *; exact hy
        · intro y hy; exact List.mem_cons_of_mem _ (firm_sub_held s0 y hy)
      exact .inl ⟨(release_err hh hs).1, .inl rfl⟩
    · exact absurd hs (by simp)
  | mainExit =>
    simp only [step] at hs
    split at hs <;> exact absurd hs (by simp)
  | close r =>
    simp only [step] at hs
    split at hs
    · exact absurd hs (by simp)
    · exact absurd hs (begin_err (s := { s with done := true }) h.ref).1
  | closerFlush a r =>
    have fin : ∀ f, f ∈ s.main.flush? ++ s.closer.flush? → flushStep s f a = .err e →
        (e = .doubleClose ∧ ∃ x msgs, (f = .swapped x msgs ∨ ∃ ok, f = .wrote x msgs ok) ∧ (s.infos x).closed = true) ∨
        (e = .unfinishedRelease ∧ ∃ x msgs, f = .ended x msgs ∧ (s.infos x).closed = false) := fun f hf h1 => by
      obtain ⟨R, FR, h2, h3⟩ := flush_hyps h hf
      exact flushStep_err h2 h3 h1
    simp only [step] at hs
    split at hs
    · rename_i f hm
      have hfm : f ∈ s.main.flush? ++ s.closer.flush? := by simp [hm, Closer.flush?]
      split at hs <;> try (simp at hs; done)
      · rename_i s1 id hf
        exact absurd hs (begin_err (rinv_overCloser h hm hf).ref).1
      · rename_i e' hf
        simp only [Outcome.err.injEq] at hs; subst hs
        rcases fin f hfm hf with ⟨h1, x, msgs, h2, h3⟩ | ⟨h1, x, msgs, h2, h3⟩
        · exact .inr (.inr ⟨h1, .inr ⟨f, hfm, x, by rcases h2 with h2 | ⟨_, h2⟩ <;> simp [h2, Flush.roles], h3⟩⟩)
        · exact .inl ⟨h1, .inr ⟨f, hfm, x, msgs, h2, h3⟩⟩
    · exact absurd hs (by simp)
  | cancel => exact absurd hs (by simp [step])
  | setDone => exact absurd hs (by simp [step])
  | fragment r =>
    simp only [step] at hs
    split at hs
    · split at hs <;> try (simp at hs; done)
      rename_i h1
      exact absurd h1 (acquire_no_err h.ref)
    · exact absurd hs (by simp)
  | fragmentDone i er =>
    simp only [step] at hs
    split at hs
    · split at hs
      · simp only [Outcome.err.injEq] at hs
        exact .inr (.inr ⟨hs.symm, .inl ⟨i, er, rfl⟩⟩)
      · exact absurd hs (by simp)
    · exact absurd hs (by simp)
  | gc x =>
    simp only [step] at hs
    split at hs <;> exact absurd hs (by simp)

end Verif.DelayedSend
