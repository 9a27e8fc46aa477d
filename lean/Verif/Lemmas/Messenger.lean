import Verif.Model.Messenger
/-!
# Lemmas about messengers
-/
namespace Verif.Messenger

/-- `wg.Done` was called once for a closed messenger and never for an open one. -/
def Done (objs : List Obj) : Prop := ∀ (j : Nat) (o : Obj), objs[j]? = some o → o.dones = if o.isClosed then 1 else 0

/-- Messengers after some of them were closed or got a handler. -/
structure Later (a b : List Obj) : Prop where
  len : b.length = a.length
  keep : ∀ (j : Nat) (o : Obj), a[j]? = some o → ∃ o', b[j]? = some o' ∧ o'.msgType = o.msgType ∧
    (o.handler.isSome → o'.handler.isSome) ∧ (o.isClosed = true → o'.isClosed = true)

theorem Later.refl (a : List Obj) : Later a a := ⟨rfl, fun _ o h => ⟨o, h, rfl, id, id⟩⟩

theorem Later.trans {a b c : List Obj} (h1 : Later a b) (h2 : Later b c) : Later a c := by
  refine ⟨h2.len.trans h1.len, fun j o h => ?_⟩
  obtain ⟨o1, g1, g2, g3, g4⟩ := h1.keep j o h
  obtain ⟨o2, k1, k2, k3, k4⟩ := h2.keep j o1 g1
  exact ⟨o2, k1, k2.trans g2, fun h => k3 (g3 h), fun h => k4 (g4 h)⟩

theorem later_set {a : List Obj} {i : Nat} {o o' : Obj} (h : a[i]? = some o) (h1 : o'.msgType = o.msgType)
    (h2 : o.handler.isSome → o'.handler.isSome) (h3 : o.isClosed = true → o'.isClosed = true) : Later a (a.set i o') := by
  refine ⟨by simp, fun j x hx => ?_⟩
  by_cases hj : i = j
  · subst hj
    rw [h] at hx
    simp only [Option.some.injEq] at hx
    subst hx
    have hi := (List.getElem?_eq_some_iff.1 h).1
    exact ⟨o', List.getElem?_set_self hi, h1, h2, h3⟩
  · exact ⟨x, by rw [List.getElem?_set_ne hj]; exact hx, rfl, id, id⟩

theorem done_set {a : List Obj} {i : Nat} {o' : Obj} (h : Done a) (h1 : o'.dones = if o'.isClosed then 1 else 0) :
    Done (a.set i o') := by
  intro j x hx
  by_cases hj : i = j
  · subst hj
    rw [List.getElem?_set_self'] at hx
    cases hi : a[i]? <;> simp [hi] at hx
    subst hx; exact h1
  · rw [List.getElem?_set_ne hj] at hx
    exact h j x hx

/-- Closing never fails, and keeps everything but the closed messenger. -/
theorem closeObj_ok {objs : List Obj} (i : Nat) (h : Done objs) :
    ∃ objs', closeObj objs i = .ok objs' ∧ Later objs objs' ∧ Done objs' ∧
      (∀ (o : Obj), objs'[i]? = some o → o.isClosed = true) ∧
      (∀ (j : Nat) (o : Obj), objs[j]? = some o → ∃ o', objs'[j]? = some o' ∧ o'.handler = o.handler) := by
  unfold closeObj
  cases hi : objs[i]? with
  | none => exact ⟨objs, rfl, .refl _, h, fun o ho => by simp_all, fun j o ho => ⟨o, ho, rfl⟩⟩
  | some o =>
    have hd := h i o hi
    have hl := (List.getElem?_eq_some_iff.1 hi).1
    by_cases hc : o.isClosed = true
    · simp only [hc, if_true]
      exact ⟨objs, rfl, .refl _, h, fun x hx => by simp_all, fun j o ho => ⟨o, ho, rfl⟩⟩
    · simp only [hc] at hd
      simp only [hc, hd]
      refine ⟨_, rfl, later_set hi rfl id (fun _ => rfl), done_set h (by simp), fun x hx => ?_, fun j x hx => ?_⟩
      · rw [List.getElem?_set_self hl] at hx
        simp only [Option.some.injEq] at hx
        rw [← hx]
      · by_cases hj : i = j
        · subst hj
          rw [hi] at hx
          simp only [Option.some.injEq] at hx
          exact ⟨_, List.getElem?_set_self hl, by rw [← hx]⟩
        · exact ⟨x, by rw [List.getElem?_set_ne hj]; exact hx, rfl⟩

theorem closeAll_ok : ∀ (m : List (Nat × Nat)) {objs : List Obj}, Done objs →
    ∃ objs', closeAll objs m = .ok objs' ∧ Later objs objs' ∧ Done objs' ∧
      ∀ p ∈ m, ∀ (o : Obj), objs'[p.2]? = some o → o.isClosed = true := by
  intro m
  induction m with
  | nil => intro objs h; exact ⟨objs, rfl, .refl _, h, fun p hp => by simp at hp⟩
  | cons p m ih =>
    intro objs h
    obtain ⟨o1, e1, l1, d1, c1, _⟩ := closeObj_ok p.2 h
    obtain ⟨o2, e2, l2, d2, c2⟩ := ih d1
    refine ⟨o2, by simp only [closeAll, e1, e2], l1.trans l2, d2, fun q hq o ho => ?_⟩
    rcases List.mem_cons.1 hq with rfl | hq
    · have hlt := (List.getElem?_eq_some_iff.1 ho).1
      rw [l2.len] at hlt
      obtain ⟨o', k1, _, _, k4⟩ := l2.keep q.2 o1[q.2] (List.getElem?_eq_getElem hlt)
      rw [k1] at ho
      simp only [Option.some.injEq] at ho
      rw [← ho]
      exact k4 (c1 _ (List.getElem?_eq_getElem hlt))
    · exact c2 q hq o ho

theorem lookup_mem {m : List (Nat × Nat)} {t o : Nat} (h : lookup m t = some o) : (t, o) ∈ m := by
  unfold lookup at h
  cases hf : m.find? (fun p => p.1 = t) with
  | none => simp [hf] at h
  | some p =>
    simp only [hf, Option.map_some, Option.some.injEq] at h
    have h1 := List.mem_of_find?_eq_some hf
    have h2 := List.find?_some hf
    simp only [decide_eq_true_eq] at h2
    rw [← h2, ← h]; exact h1

theorem lookup_cons (m : List (Nat × Nat)) (a b t : Nat) :
    lookup ((a, b) :: m) t = if a = t then some b else lookup m t := by
  unfold lookup
  by_cases h : a = t <;> simp [h]

theorem lookup_filter (m : List (Nat × Nat)) {a t : Nat} (h : a ≠ t) :
    lookup (m.filter (fun p => p.1 ≠ a)) t = lookup m t := by
  induction m with
  | nil => rfl
  | cons p m ih =>
    obtain ⟨x, y⟩ := p
    by_cases hx : x = a
    · subst hx
      rw [lookup_cons, if_neg h, ← ih, List.filter_cons]
      simp
    · rw [List.filter_cons, if_pos (by simpa using hx), lookup_cons, lookup_cons, ih]

/-- The messenger of a registration. -/
def Reg.obj : Reg → Nat
  | .created o _ => o
  | .locked o _ => o
  | .writing o _ => o
  | .registered o _ => o

/-- Its messenger is not in the map yet. -/
def Reg.early : Reg → Bool
  | .registered _ _ => false
  | _ => true

structure Inv (s : State) : Prop where
  done : Done s.objs
  reg : ∀ r ∈ s.regs, r.obj < s.objs.length
  cur : ∀ p ∈ s.cur, p.2 < s.objs.length ∧ lookup s.cur p.1 = some p.2
  found : ∀ t, s.reader = .found t → (lookup s.cur t).isSome = true
  locks : s.regs.countP Reg.isLocked ≤ 1
  old : ∀ r ∈ s.regs, r.isLocked = true → ∀ (o : Obj), s.objs[r.obj]? = some o → ∀ i, lookup s.cur o.msgType = some i →
    ∀ (p : Obj), s.objs[i]? = some p → p.isClosed = true
  cover : ∀ (j : Nat) (o : Obj), s.objs[j]? = some o → o.isClosed = true ∨ (∃ t, (t, j) ∈ s.cur) ∨
    ∃ r ∈ s.regs, r.early = true ∧ r.obj = j
  log : s.log.map Prod.fst ++ (match s.reader with | .found t => [t] | .queueing t => [t] | _ => []) = s.arrived
  ended : s.reader = .ended → s.ctx = true

/-- The fields that depend on the messengers hold after some were closed or got a handler. -/
theorem Inv.later {s : State} (h : Inv s) {objs : List Obj} (hl : Later s.objs objs) (hd : Done objs) :
    Inv { s with objs := objs } := by
  have back : ∀ (j : Nat) (o : Obj), objs[j]? = some o → ∃ o0, s.objs[j]? = some o0 ∧ o.msgType = o0.msgType ∧
      (o0.isClosed = true → o.isClosed = true) := by
    intro j o ho
    have hlt := (List.getElem?_eq_some_iff.1 ho).1
    rw [hl.len] at hlt
    obtain ⟨o', k1, k2, _, k4⟩ := hl.keep j s.objs[j] (List.getElem?_eq_getElem hlt)
    rw [k1] at ho; simp only [Option.some.injEq] at ho; subst ho
    exact ⟨_, List.getElem?_eq_getElem hlt, k2, k4⟩
  refine ⟨hd, fun r hr => ?_, fun p hp => ?_, h.found, h.locks, fun r hr hk o ho i hi p hp => ?_, fun j o ho => ?_, h.log,
    h.ended⟩
  · simp only [hl.len]; exact h.reg r hr
  · simp only [hl.len]; exact h.cur p hp
  · obtain ⟨o0, e1, e2, _⟩ := back _ _ ho
    obtain ⟨p0, f1, _, f3⟩ := back _ _ hp
    rw [e2] at hi
    exact f3 (h.old r hr hk o0 e1 i hi p0 f1)
  · obtain ⟨o0, e1, _, e3⟩ := back _ _ ho
    rcases h.cover j o0 e1 with h1 | h1
    · exact .inl (e3 h1)
    · exact .inr h1

theorem countP_set_le {p : Reg → Bool} : ∀ (l : List Reg) (i : Nat) (r r' : Reg), l[i]? = some r →
    (l.set i r').countP p + (if p r then 1 else 0) = l.countP p + (if p r' then 1 else 0) := by
  intro l
  induction l with
  | nil => intro i r r' h; simp at h
  | cons a l ih =>
    intro i r r' h
    cases i with
    | zero =>
      simp only [List.getElem?_cons_zero, Option.some.injEq] at h
      subst h
      simp only [List.set_cons_zero, List.countP_cons]; omega
    | succ i =>
      simp only [List.getElem?_cons_succ] at h
      have := ih i r r' h
      simp only [List.set_cons_succ, List.countP_cons]; omega

theorem countP_eraseIdx_le {p : Reg → Bool} (l : List Reg) (i : Nat) : (l.eraseIdx i).countP p ≤ l.countP p :=
  (List.eraseIdx_sublist l i).countP_le

theorem mem_set_cases {l : List Reg} {i : Nat} {r x : Reg} (h : x ∈ l.set i r) : x = r ∨ x ∈ l := by
  rcases List.mem_or_eq_of_mem_set h with h | h
  · exact .inr h
  · exact .inl h

/-- Another registration is not affected. -/
theorem mem_set_other {l : List Reg} {i : Nat} {r r' x : Reg} (hi : l[i]? = some r) (hx : x ∈ l) (hne : x ≠ r) :
    x ∈ l.set i r' := by
  obtain ⟨k, hk⟩ := List.mem_iff_getElem?.1 hx
  by_cases h : i = k
  · subst h; rw [hi] at hk; simp only [Option.some.injEq] at hk; exact absurd hk.symm hne
  · exact List.mem_iff_getElem?.2 ⟨k, by rw [List.getElem?_set_ne h]; exact hk⟩

theorem mem_set_self {l : List Reg} {i : Nat} {r r' : Reg} (hi : l[i]? = some r) : r' ∈ l.set i r' :=
  List.mem_iff_getElem?.2 ⟨i, List.getElem?_set_self (List.getElem?_eq_some_iff.1 hi).1⟩

theorem mem_erase_other {l : List Reg} {i : Nat} {r x : Reg} (hi : l[i]? = some r) (hx : x ∈ l) (hne : x ≠ r) :
    x ∈ l.eraseIdx i := by
  obtain ⟨k, hk⟩ := List.mem_iff_getElem?.1 hx
  refine List.mem_eraseIdx_iff_getElem?.2 ⟨k, ?_, hk⟩
  intro h; subst h; rw [hi] at hk; simp only [Option.some.injEq] at hk; exact hne hk.symm

theorem countP_ge_two {p : Reg → Bool} : ∀ (l : List Reg) (i k : Nat) (r x : Reg), i < k → l[i]? = some r →
    l[k]? = some x → p r = true → p x = true → 2 ≤ l.countP p := by
  intro l
  induction l with
  | nil => intro i k r x _ h; simp at h
  | cons a l ih =>
    intro i k r x hlt hi hk hr hx
    cases k with
    | zero => omega
    | succ k =>
      simp only [List.getElem?_cons_succ] at hk
      cases i with
      | zero =>
        simp only [List.getElem?_cons_zero, Option.some.injEq] at hi
        subst hi
        have : 0 < l.countP p := List.countP_pos_iff.2 ⟨x, List.mem_iff_getElem?.2 ⟨k, hk⟩, hx⟩
        rw [List.countP_cons, if_pos hr]; omega
      | succ i =>
        simp only [List.getElem?_cons_succ] at hi
        have := ih i k r x (by omega) hi hk hr hx
        rw [List.countP_cons]; omega

theorem countP_two {p : Reg → Bool} {l : List Reg} {i : Nat} {r x : Reg} (hl : l.countP p ≤ 1) (hi : l[i]? = some r)
    (hr : p r = true) (hx : x ∈ l) (hp : p x = true) : x = r := by
  obtain ⟨k, hk⟩ := List.mem_iff_getElem?.1 hx
  rcases Nat.lt_trichotomy i k with h | h | h
  · have := countP_ge_two l i k r x h hi hk hr hp; omega
  · subst h; rw [hi] at hk; simp only [Option.some.injEq] at hk; exact hk.symm
  · have := countP_ge_two l k i x r h hk hi hp hr; omega

theorem getElem?_append_one {α} {l : List α} {a x : α} {j : Nat} (h : (l ++ [a])[j]? = some x) :
    l[j]? = some x ∨ (j = l.length ∧ x = a) := by
  rw [List.getElem?_append] at h
  split at h
  · exact .inl h
  · rename_i hge
    have := (List.getElem?_eq_some_iff.1 h).1
    simp only [List.length_singleton] at this
    have hj : j - l.length = 0 := by omega
    rw [hj] at h
    simp only [List.getElem?_cons_zero, Option.some.injEq] at h
    exact .inr ⟨by omega, h.symm⟩

theorem locked_false {s : State} (h : locked s = false) : ∀ r ∈ s.regs, r.isLocked = false := by
  intro r hr
  unfold locked at h
  rw [List.any_eq_false] at h
  simpa using h r hr

theorem countP_locked {s : State} (h : locked s = false) : s.regs.countP Reg.isLocked = 0 := by
  rw [List.countP_eq_zero]
  intro r hr
  simp [locked_false h r hr]

theorem inv_init : Inv State.init := by
  refine ⟨?_, ?_, ?_, ?_, ?_, ?_, ?_, rfl, ?_⟩ <;> simp [State.init, Done]

theorem inv_step {s s' : State} {a : Act} (h : Inv s) (hs : step s a = .ok s') : Inv s' := by
  cases a with
  | cancel =>
    simp only [step, Outcome.ok.injEq] at hs; subst hs
    exact ⟨h.done, h.reg, h.cur, h.found, h.locks, h.old, h.cover, h.log, fun _ => rfl⟩
  | register t hd =>
    simp only [step] at hs
    split at hs
    · split at hs <;> simp only [Outcome.ok.injEq, reduceCtorEq] at hs
      subst hs; exact h
    · simp only [Outcome.ok.injEq] at hs; subst hs
      refine ⟨?_, ?_, ?_, h.found, ?_, ?_, ?_, h.log, h.ended⟩
      · intro j o ho
        rcases getElem?_append_one ho with ho | ⟨_, rfl⟩
        · exact h.done j o ho
        · rfl
      · intro r hr
        simp only [List.length_append, List.length_singleton]
        rcases List.mem_append.1 hr with hr | hr
        · have := h.reg r hr; omega
        · simp only [List.mem_singleton] at hr; subst hr; simp [Reg.obj]
      · intro p hp
        have := h.cur p hp
        simp only [List.length_append, List.length_singleton]
        exact ⟨by omega, this.2⟩
      · simp only [List.countP_append, List.countP_singleton, Reg.isLocked]
        have := h.locks
        simpa using this
      · intro r hr hk o ho i hi p hp
        rcases List.mem_append.1 hr with hr | hr
        · have hlt := h.reg r hr
          have ho' : s.objs[r.obj]? = some o := by
            rw [← ho, List.getElem?_append_left hlt]
          have hlt2 := (h.cur _ (lookup_mem hi)).1
          have hp' : s.objs[i]? = some p := by
            rw [← hp, List.getElem?_append_left hlt2]
          exact h.old r hr hk o ho' i hi p hp'
        · simp only [List.mem_singleton] at hr; subst hr; simp [Reg.isLocked] at hk
      · intro j o ho
        rcases getElem?_append_one ho with ho | ⟨hj, rfl⟩
        · rcases h.cover j o ho with h1 | h1 | ⟨r, h1, h2⟩
          · exact .inl h1
          · exact .inr (.inl h1)
          · exact .inr (.inr ⟨r, List.mem_append_left _ h1, h2⟩)
        · exact .inr (.inr ⟨.created s.objs.length hd, List.mem_append_right _ (by simp), rfl, hj.symm⟩)
  | next i =>
    simp only [step] at hs
    split at hs
    · simp at hs
    · rename_i o hd hi
      split at hs
      · simp at hs
      · rename_i hlk
        simp only [Bool.not_eq_true] at hlk
        split at hs
        · simp at hs
        · rename_i obj ho
          have hmem : Reg.created o hd ∈ s.regs := List.mem_iff_getElem?.2 ⟨i, hi⟩
          -- the invariant after closing the previous messenger
          have key : ∀ objs, closeOld s.objs s.cur obj.msgType = .ok objs → Later s.objs objs ∧ Done objs ∧
              ∀ k, lookup s.cur obj.msgType = some k → ∀ (p : Obj), objs[k]? = some p → p.isClosed = true := by
            intro objs he
            unfold closeOld at he
            split at he
            · rename_i old hold
              obtain ⟨objs', e1, l1, d1, c1, _⟩ := closeObj_ok old h.done
              rw [e1] at he
              simp only [Outcome.ok.injEq] at he; subst he
              refine ⟨l1, d1, fun k hk p hp => ?_⟩
              rw [hold] at hk; simp only [Option.some.injEq] at hk; subst hk
              exact c1 p hp
            · rename_i hnone
              simp only [Outcome.ok.injEq] at he; subst he
              exact ⟨.refl _, h.done, fun k hk => by rw [hnone] at hk; simp at hk⟩
          split at hs <;> simp only [Outcome.ok.injEq, reduceCtorEq] at hs
          rename_i objs he
          subst hs
          obtain ⟨hl, hdn, hcl⟩ := key objs he
          have h' := h.later hl hdn
          refine ⟨h'.done, ?_, h'.cur, h'.found, ?_, ?_, ?_, h'.log, h'.ended⟩
          · intro r hr
            rcases mem_set_cases hr with rfl | hr
            · exact h'.reg (.created o hd) hmem
            · exact h'.reg r hr
          · have := countP_set_le (p := Reg.isLocked) s.regs i _ (.locked o hd) hi
            have h0 := countP_locked hlk
            simp only [Reg.isLocked, if_true] at this ⊢
            simp at this; omega
          · intro r hr hk x hx k hkk p hp
            rcases mem_set_cases hr with rfl | hr
            · simp only [Reg.obj] at hx
              obtain ⟨o', k1, k2, _⟩ := hl.keep o obj ho
              rw [k1] at hx; simp only [Option.some.injEq] at hx; subst hx
              rw [k2] at hkk
              exact hcl k hkk p hp
            · exact absurd hk (by simp [locked_false hlk r hr])
          · intro j x hx
            rcases h'.cover j x hx with h1 | h1 | ⟨r, h1, h2, h3⟩
            · exact .inl h1
            · exact .inr (.inl h1)
            · by_cases hr : r = .created o hd
              · subst hr
                exact .inr (.inr ⟨_, mem_set_self hi, rfl, h3⟩)
              · exact .inr (.inr ⟨r, mem_set_other hi h1 hr, h2, h3⟩)
    · rename_i o hd hi
      simp only [Outcome.ok.injEq] at hs; subst hs
      have hmem : Reg.locked o hd ∈ s.regs := List.mem_iff_getElem?.2 ⟨i, hi⟩
      refine ⟨h.done, ?_, h.cur, h.found, ?_, ?_, ?_, h.log, h.ended⟩
      · intro r hr
        rcases mem_set_cases hr with rfl | hr
        · exact h.reg (.locked o hd) hmem
        · exact h.reg r hr
      · have := countP_set_le (p := Reg.isLocked) s.regs i _ (.writing o hd) hi
        have h0 := h.locks
        simp only [Reg.isLocked, if_true] at this
        simp only; omega
      · intro r hr hk
        rcases mem_set_cases hr with rfl | hr
        · exact h.old (.locked o hd) hmem rfl
        · exact h.old r hr hk
      · intro j x hx
        rcases h.cover j x hx with h1 | h1 | ⟨r, h1, h2, h3⟩
        · exact .inl h1
        · exact .inr (.inl h1)
        · by_cases hr : r = .locked o hd
          · subst hr
            exact .inr (.inr ⟨_, mem_set_self hi, rfl, h3⟩)
          · exact .inr (.inr ⟨r, mem_set_other hi h1 hr, h2, h3⟩)
    · rename_i o hd hi
      split at hs
      · simp at hs
      · rename_i obj ho
        simp only [Outcome.ok.injEq] at hs; subst hs
        have hmem : Reg.writing o hd ∈ s.regs := List.mem_iff_getElem?.2 ⟨i, hi⟩
        have hold := h.old _ hmem rfl obj ho
        have hlook : ∀ t, lookup ((obj.msgType, o) :: s.cur.filter (fun p => p.1 ≠ obj.msgType)) t =
            if obj.msgType = t then some o else lookup s.cur t := by
          intro t
          rw [lookup_cons]
          split
          · rfl
          · rename_i hne; exact lookup_filter _ hne
        have hregs : ∀ r ∈ afterWrite s.regs i o hd, (r ∈ s.regs ∧ (r.isLocked = true → False)) ∨
            (r.obj = o ∧ r.isLocked = false ∧ r.early = false) := by
          intro r hr
          have hm : ∀ r ∈ s.regs, r.isLocked = true → r = .writing o hd := fun r hr hk =>
            countP_two h.locks hi rfl hr hk
          cases hd with
          | none =>
            obtain ⟨k, hk, hk2⟩ := List.mem_eraseIdx_iff_getElem?.1 hr
            have hr' := List.mem_iff_getElem?.2 ⟨k, hk2⟩
            refine .inl ⟨hr', fun hl => ?_⟩
            have := hm r hr' hl
            subst this
            rcases Nat.lt_trichotomy i k with h1 | h1 | h1
            · have := countP_ge_two (p := Reg.isLocked) _ i k _ _ h1 hi hk2 rfl rfl; have := h.locks; omega
            · exact hk h1.symm
            · have := countP_ge_two (p := Reg.isLocked) _ k i _ _ h1 hk2 hi rfl rfl; have := h.locks; omega
          | some hh =>
            obtain ⟨k, hk⟩ := List.mem_iff_getElem?.1 hr
            simp only [afterWrite] at hk
            by_cases hik : i = k
            · subst hik
              rw [List.getElem?_set_self (List.getElem?_eq_some_iff.1 hi).1] at hk
              simp only [Option.some.injEq] at hk; subst hk
              exact .inr ⟨rfl, rfl, rfl⟩
            · rw [List.getElem?_set_ne hik] at hk
              have hr' := List.mem_iff_getElem?.2 ⟨k, hk⟩
              refine .inl ⟨hr', fun hl => ?_⟩
              have := hm r hr' hl
              subst this
              rcases Nat.lt_trichotomy i k with h1 | h1 | h1
              · have := countP_ge_two (p := Reg.isLocked) _ i k _ _ h1 hi hk rfl rfl; have := h.locks; omega
              · exact hik h1
              · have := countP_ge_two (p := Reg.isLocked) _ k i _ _ h1 hk hi rfl rfl; have := h.locks; omega
        refine ⟨h.done, ?_, ?_, ?_, ?_, ?_, ?_, h.log, h.ended⟩
        · intro r hr
          rcases hregs r hr with ⟨hr, _⟩ | ⟨hr, _⟩
          · exact h.reg r hr
          · rw [hr]; exact h.reg _ hmem
        · intro p hp
          simp only [hlook]
          rcases List.mem_cons.1 hp with rfl | hp
          · exact ⟨h.reg _ hmem, by simp⟩
          · rw [List.mem_filter] at hp
            have hne : p.1 ≠ obj.msgType := by simpa using hp.2
            have := h.cur p hp.1
            exact ⟨this.1, by rw [if_neg (Ne.symm hne)]; exact this.2⟩
        · intro t ht
          simp only [hlook]
          split
          · rfl
          · exact h.found t ht
        · have : (afterWrite s.regs i o hd).countP Reg.isLocked = 0 := by
            rw [List.countP_eq_zero]
            intro r hr hk
            rcases hregs r hr with ⟨_, h1⟩ | ⟨_, h1, _⟩
            · exact h1 hk
            · rw [h1] at hk; simp at hk
          simp only [this]; omega
        · intro r hr hk
          rcases hregs r hr with ⟨_, h1⟩ | ⟨_, h1, _⟩
          · exact absurd hk h1
          · rw [h1] at hk; simp at hk
        · intro j x hx
          by_cases hjo : j = o
          · subst hjo
            exact .inr (.inl ⟨obj.msgType, by simp⟩)
          · rcases h.cover j x hx with h1 | ⟨t, h1⟩ | ⟨r, h1, h2, h3⟩
            · exact .inl h1
            · by_cases htt : t = obj.msgType
              · subst htt
                exact .inl (hold j (h.cur _ h1).2 x hx)
              · exact .inr (.inl ⟨t, List.mem_cons_of_mem _ (List.mem_filter.2 ⟨h1, by simpa using htt⟩)⟩)
            · have hr : r ≠ .writing o hd := fun e => by subst e; exact hjo h3.symm
              refine .inr (.inr ⟨r, ?_, h2, h3⟩)
              cases hd with
              | none => exact mem_erase_other hi h1 hr
              | some _ => exact mem_set_other hi h1 hr
    · rename_i o hd hi
      split at hs
      · simp at hs
      · rename_i obj ho
        simp only [Outcome.ok.injEq] at hs; subst hs
        have h' := h.later (later_set (o' := { obj with handler := some hd }) ho rfl (fun _ => rfl) id)
          (done_set h.done (h.done o obj ho :))
        refine ⟨h'.done, ?_, h'.cur, h'.found, ?_, ?_, ?_, h'.log, h'.ended⟩
        · intro r hr; exact h'.reg r (List.mem_of_mem_eraseIdx hr)
        · exact Nat.le_trans (countP_eraseIdx_le _ _) h.locks
        · intro r hr; exact h'.old r (List.mem_of_mem_eraseIdx hr)
        · intro j x hx
          rcases h'.cover j x hx with h1 | h1 | ⟨r, h1, h2, h3⟩
          · exact .inl h1
          · exact .inr (.inl h1)
          · exact .inr (.inr ⟨r, mem_erase_other hi h1 (fun e => by subst e; simp [Reg.early] at h2), h2, h3⟩)
  | setHandler o hd =>
    simp only [step] at hs
    split at hs
    · simp at hs
    · rename_i obj ho
      simp only [Outcome.ok.injEq] at hs; subst hs
      exact h.later (later_set (o' := { obj with handler := some hd }) ho rfl (fun _ => rfl) id)
        (done_set h.done (h.done o obj ho :))
  | close o =>
    obtain ⟨objs, e1, l1, d1, _⟩ := closeObj_ok o h.done
    simp only [step, e1, Outcome.ok.injEq] at hs; subst hs
    exact h.later l1 d1
  | arrive t =>
    simp only [step] at hs
    split at hs
    · rename_i hrd
      have hlog := h.log
      simp only [hrd, List.append_nil] at hlog
      split at hs
      · simp at hs
      · split at hs <;> simp only [Outcome.ok.injEq] at hs <;> subst hs
        · rename_i o ho
          refine ⟨h.done, h.reg, h.cur, ?_, h.locks, h.old, h.cover, by simp [hlog], by simp⟩
          intro t' ht; simp only [Reader.found.injEq] at ht; subst ht; simp [ho]
        · exact ⟨h.done, h.reg, h.cur, by simp, h.locks, h.old, h.cover, by simp [hlog], by simp⟩
    · simp at hs
  | dispatch =>
    simp only [step] at hs
    split at hs
    · rename_i t hrd
      have hlog := h.log
      simp only [hrd] at hlog
      split at hs
      · simp at hs
      · split at hs
        · simp at hs
        · split at hs <;> simp only [Outcome.ok.injEq, reduceCtorEq] at hs
          subst hs
          exact ⟨h.done, h.reg, h.cur, by simp, h.locks, h.old, h.cover, by simp [hlog], by simp⟩
    · rename_i t hrd
      have hlog := h.log
      simp only [hrd] at hlog
      split at hs
      · simp at hs
      · simp only [Outcome.ok.injEq] at hs; subst hs
        exact ⟨h.done, h.reg, h.cur, by simp, h.locks, h.old, h.cover, by simp [hlog], by simp⟩
    · simp at hs
  | clean =>
    simp only [step] at hs
    split at hs
    · rename_i hrd
      have hlog := h.log
      simp only [hrd] at hlog
      split at hs
      · simp at hs
      · obtain ⟨objs, e1, l1, d1, _⟩ := closeAll_ok s.cur h.done
        simp only [e1, Outcome.ok.injEq] at hs; subst hs
        have h' := h.later l1 d1
        exact ⟨h'.done, h'.reg, h'.cur, by simp, h'.locks, h'.old, h'.cover, hlog, fun _ => rfl⟩
    · simp at hs
  | read =>
    simp only [step] at hs
    split at hs <;> simp only [Outcome.ok.injEq, reduceCtorEq] at hs
    subst hs; exact h

theorem inv_reachable {s : State} (h : Reachable s) : Inv s := by
  induction h with
  | init => exact inv_init
  | step a _ hs ih => exact inv_step ih hs

end Verif.Messenger
