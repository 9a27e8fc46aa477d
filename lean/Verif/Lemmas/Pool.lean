import Verif.Spec.Pool
/-!
# Lemmas about the pools
-/
namespace Verif.Pool
open Instr

variable {comp : Name → Bytes → List Bytes → Bytes}

/-! ## A check of the code -/

/-- Nothing is received. -/
def noTake (c : List Instr) : Bool := c.all fun | swap _ _ | take _ => false | _ => true

/-- The variables which are sent. -/
def outs (c : List Instr) : List Name := c.filterMap fun | out n => some n | _ => none

/-- Variables have a value when they are used, and have been written when they are read; what is deferred is not released
otherwise. -/
def check : List Name → List Name → List Frame → List Instr → Bool
  | _, _, fs, [] => fs.isEmpty
  | live, known, fs, acq n _ false :: c => !live.contains n && check (n :: live) (drop known n) fs c
  | _, _, [], acq _ _ true :: _ => false
  | live, known, f :: fs, acq n _ true :: c =>
    !live.contains n && check (n :: live) (drop known n) ({ f with deferred := n :: f.deferred } :: fs) c
  | live, known, fs, fill n src :: c => live.contains n && src.all known.contains && check live (n :: known) fs c
  | live, known, fs, clear n :: c => live.contains n && n == .next && check live (n :: known) fs c
  | live, known, fs, append n :: c => known.contains n && check live known fs c
  | live, known, fs, swap n m :: c =>
    fs.isEmpty && live == [n] && known == [n] && n == .next && m == .old && check [m] [m] fs c
  | live, known, fs, give n :: c => fs.isEmpty && live == [n] && known == [n] && check [] [] fs c
  | live, known, fs, take n :: c => fs.isEmpty && live == [] && known == [] && n == .item && check [n] [n] fs c
  | live, known, fs, out n :: c => known.contains n && noTake c && check live known fs c
  | live, known, fs, Instr.release n :: c => fs.isEmpty && live.contains n && check (drop live n) (drop known n) fs c
  | live, known, fs, enter :: c => check live known (⟨live, known, []⟩ :: fs) c
  | _, _, [], exit :: _ => false
  | _, _, f :: fs, exit :: c => check f.saved f.known fs c

theorem check_code (fn : Fn) : check [] [] [] fn.code = true := by
  cases fn
  case single k => cases k <;> decide +kernel
  all_goals decide +kernel

theorem check_toExit : ∀ (c : List Instr) (live known : List Name) (top : List Frame) (f : Frame) (fs : List Frame),
    check live known (top ++ f :: fs) c = true → ∃ c', toExit top.length c = exit :: c' ∧ check f.saved f.known fs c' = true
  | [], live, known, top, f, fs, h => by simp [check] at h
  | i :: c, live, known, top, f, fs, h => by
    cases i with
    | acq n k d =>
      cases d with
      | false =>
        simp only [check, Bool.and_eq_true] at h
        have := check_toExit c _ _ top f fs h.2
        simpa [toExit] using this
      | true =>
        cases top with
        | nil =>
          simp only [List.nil_append, check, Bool.and_eq_true] at h
          have := check_toExit c _ _ [] _ fs h.2
          simpa [toExit] using this
        | cons g top =>
          simp only [List.cons_append, check, Bool.and_eq_true] at h
          have := check_toExit c _ _ ({ g with deferred := n :: g.deferred } :: top) f fs h.2
          simpa [toExit] using this
    | fill n src =>
      simp only [check, Bool.and_eq_true] at h
      simpa [toExit] using check_toExit c _ _ top f fs h.2
    | clear n =>
      simp only [check, Bool.and_eq_true] at h
      simpa [toExit] using check_toExit c _ _ top f fs h.2
    | append n =>
      simp only [check, Bool.and_eq_true] at h
      simpa [toExit] using check_toExit c _ _ top f fs h.2
    | swap n m => simp [check] at h
    | give n => simp [check] at h
    | take n => simp [check] at h
    | out n =>
      simp only [check, Bool.and_eq_true] at h
      simpa [toExit] using check_toExit c _ _ top f fs h.2
    | release n => simp [check] at h
    | enter =>
      simp only [check] at h
      have := check_toExit c _ _ (⟨live, known, []⟩ :: top) f fs h
      simpa [toExit] using this
    | exit =>
      cases top with
      | nil => exact ⟨c, rfl, h⟩
      | cons g top =>
        simp only [List.cons_append, check] at h
        have := check_toExit c _ _ top f fs h
        simpa [toExit] using this

theorem toExit_suffix : ∀ (d : Nat) (c : List Instr), ∃ pre, c = pre ++ toExit d c
  | d, [] => ⟨[], by cases d <;> rfl⟩
  | d, i :: c => by
    have go : ∀ d', toExit d (i :: c) = toExit d' c → ∃ pre, i :: c = pre ++ toExit d (i :: c) := by
      intro d' h
      obtain ⟨pre, hp⟩ := toExit_suffix d' c
      exact ⟨i :: pre, by rw [h, List.cons_append, ← hp]⟩
    cases i with
    | exit =>
      cases d with
      | zero => exact ⟨[], rfl⟩
      | succ d => exact go d rfl
    | enter => cases d <;> exact go _ rfl
    | _ => cases d <;> exact go _ rfl

/-! ## What is written -/

/-- The bytes that a variable gets. -/
def want (comp : Name → Bytes → List Bytes → Bytes) (fn : Fn) (inp : Name → Bytes) : Name → Bytes :=
  let frag := fragmentBytes comp inp
  let extra := match fn with | .fragment => [frag] | _ => []
  let src := match fn with
    | .flush => inp .old
    | _ => message comp inp extra
  let hdr := match fn with
    | .packet | .dropped => comp .contHdr (inp .contHdr) []
    | _ => comp .contHdr (inp .contHdr) [src]
  let plain := comp .plain (inp .plain) [hdr, src]
  let iv := comp .iv (inp .iv) [hdr]
  fun
  | .msgHdr => comp .msgHdr (inp .msgHdr) extra
  | .msgBuf => message comp inp extra
  | .contHdr => hdr
  | .plain => plain
  | .iv => iv
  | .enc => comp .enc (inp .enc) [plain, iv, hdr]
  | .fragBuf => frag
  | .fragHdr => comp .fragHdr (inp .fragHdr) []
  | .next => []
  | .old => inp .old
  | .item => match fn with | .read | .readSmall => inp .item | _ => comp .item (inp .item) []

/-- The bytes written by an operation are those wanted. -/
def Instr.Right (comp : Name → Bytes → List Bytes → Bytes) (fn : Fn) (inp : Name → Bytes) : Instr → Prop
  | fill n src => comp n (inp n) (src.map (want comp fn inp)) = want comp fn inp n
  | _ => True

theorem code_right (fn : Fn) (inp : Name → Bytes) : ∀ i ∈ fn.code, i.Right comp fn inp := by
  cases fn
  case single k =>
    cases k <;>
    simp only [Fn.code, writeMessageSingle, sendMessages, List.cons_append, List.nil_append, List.forall_mem_cons, if_true, if_false,
      Bool.false_eq_true, List.append_nil, List.not_mem_nil, false_implies, implies_true, and_true] <;>
    simp [Instr.Right, want, message]
  all_goals
    simp only [Fn.code, writeMessageSingle, sendMessages, List.cons_append, List.nil_append, List.forall_mem_cons, if_true, if_false,
      Bool.false_eq_true, List.append_nil, List.not_mem_nil, false_implies, implies_true, and_true]
    simp [Instr.Right, want, message, fragmentBytes]

/-! ## Ownership -/

def addrs (env : List (Name × Nat)) : List Nat := env.map (·.2)

def names (env : List (Name × Nat)) : List Name := env.map (·.1)

theorem lookup_mem {env : List (Name × Nat)} {n : Name} {a : Nat} (h : env.lookup n = some a) : (n, a) ∈ env := by
  induction env with
  | nil => cases h
  | cons p env ih =>
    obtain ⟨m, b⟩ := p
    simp only [List.lookup_cons] at h
    split at h
    · rename_i e; simp at e; cases h; subst e; exact List.mem_cons_self
    · exact List.mem_cons_of_mem _ (ih h)

theorem lookup_none {env : List (Name × Nat)} {n : Name} (h : env.lookup n = none) : n ∉ names env := by
  induction env with
  | nil => simp [names]
  | cons p env ih =>
    obtain ⟨m, b⟩ := p
    simp only [List.lookup_cons] at h
    split at h
    · cases h
    · rename_i e
      simp at e
      simp only [names, List.map_cons, List.mem_cons, not_or]
      exact ⟨e, ih h⟩

theorem mem_lookup {env : List (Name × Nat)} (hn : (names env).Nodup) {n : Name} {a : Nat} (h : (n, a) ∈ env) :
    env.lookup n = some a := by
  induction env with
  | nil => cases h
  | cons p env ih =>
    obtain ⟨m, b⟩ := p
    simp only [names, List.map_cons, List.nodup_cons] at hn
    simp only [List.lookup_cons]
    rcases List.mem_cons.1 h with h1 | h1
    · cases h1; simp
    · have : n ∈ names env := List.mem_map.2 ⟨_, h1, rfl⟩
      have hne : n ≠ m := fun e => hn.1 (e ▸ this)
      have : (n == m) = false := by simp [hne]
      rw [this]; exact ih hn.2 h1

theorem names_without (env : List (Name × Nat)) (n : Name) : names (without env n) = drop (names env) n := by
  simp only [names, without, drop, List.filter_map]
  rfl

theorem count_without {env : List (Name × Nat)} (hn : (names env).Nodup) {n : Name} {a : Nat} (h : env.lookup n = some a) (b : Nat) :
    (addrs (without env n)).count b + (if a = b then 1 else 0) = (addrs env).count b := by
  induction env with
  | nil => cases h
  | cons p env ih =>
    obtain ⟨m, c⟩ := p
    simp only [names, List.map_cons, List.nodup_cons] at hn
    simp only [List.lookup_cons] at h
    split at h
    · rename_i e
      simp at e; cases h; subst e
      have : without ((n, a) :: env) n = env := by
        simp only [without, bne_self_eq_false, Bool.false_eq_true, not_false_eq_true, List.filter_cons_of_neg]
        rw [List.filter_eq_self]
        intro q hq
        have : q.1 ∈ env.map (·.1) := List.mem_map.2 ⟨_, hq, rfl⟩
        simp only [bne_iff_ne, ne_eq]
        intro e; rw [e] at this; exact hn.1 this
      rw [this]
      simp only [addrs, List.map_cons, List.count_cons, beq_iff_eq]
    · rename_i e
      simp at e
      have hw : without ((m, c) :: env) n = (m, c) :: without env n := by
        simp only [without]
        rw [List.filter_cons_of_pos]
        simp; exact fun h => e h.symm
      rw [hw]
      have := ih hn.2 h
      simp only [addrs, List.map_cons, List.count_cons] at this ⊢
      omega

theorem count_filter_le (env : List (Name × Nat)) (p : Name × Nat → Bool) (b : Nat) :
    (addrs (env.filter p)).count b ≤ (addrs env).count b :=
  List.Sublist.count_le b (List.Sublist.map _ List.filter_sublist)

/-- The calls in progress. -/
def Chain : List Name → List Name → List Frame → Prop
  | _, _, [] => True
  | live, known, f :: fs =>
    live.filter (fun x => x ∈ f.saved) = f.saved ∧ (∀ x ∈ f.known, x ∈ known) ∧ (∀ x ∈ f.known, x ∈ f.saved) ∧ (∀ x ∈ f.deferred, x ∈ live) ∧
      (∀ x ∈ f.deferred, x ∉ f.saved) ∧ f.deferred.Nodup ∧ Chain f.saved f.known fs

structure TaskInv (comp : Name → Bytes → List Bytes → Bytes) (h : Nat → Obj) (t : Task) : Prop where
  chk : check (names t.env) t.known t.frames t.code = true
  nodup : (names t.env).Nodup
  known : ∀ n ∈ t.known, n ∈ names t.env
  chain : Chain (names t.env) t.known t.frames
  vals : ∀ n ∈ t.known, ∀ a, (n, a) ∈ t.env → (h a).val = want comp t.fn t.inp n
  code : ∃ pre, t.fn.code = pre ++ t.code
  sent : ∃ ns, t.sent = ns.map (want comp t.fn t.inp) ∧ (ns ++ outs t.code).Sublist (outs t.fn.code)
  quiet : t.sent ≠ [] → noTake t.code = true

/-- Addresses of other goroutines. -/
def others (ts : List Task) : List Nat := ts.flatMap (fun t => addrs t.env)

/-- One goroutine `t` and the others. -/
structure Inv1 (comp : Name → Bytes → List Bytes → Bytes) (s : State) (t : Task) (os : List Task) : Prop where
  tot : ∀ a, s.free.count a + (if s.cur = a then 1 else 0) + s.queue.count a + (addrs t.env).count a + (others os).count a ≤ 1
  new : ∀ a, s.count ≤ a →
    s.free.count a + (if s.cur = a then 1 else 0) + s.queue.count a + (addrs t.env).count a + (others os).count a = 0
  idle : ∀ a ∈ s.free, (s.heap a).busy = false ∧ ((s.heap a).kind = .buf → (s.heap a).refs = 0)
  held : ∀ a, 0 < (if s.cur = a then 1 else 0) + s.queue.count a + (addrs t.env).count a + (others os).count a →
    (s.heap a).busy = true ∧ ((s.heap a).kind = .buf → (s.heap a).refs = 1)
  mine : TaskInv comp s.heap t
  theirs : ∀ o ∈ os, TaskInv comp s.heap o
  delayed : s.taken.flatten ++ (s.heap s.cur).val = s.appended.flatten
  chan : s.received ++ s.queue.map (fun a => (s.heap a).val) = s.given

theorem TaskInv.heap {h h' : Nat → Obj} {t : Task} (i : TaskInv comp h t) (e : ∀ a ∈ addrs t.env, (h' a).val = (h a).val) :
    TaskInv comp h' t :=
  ⟨i.chk, i.nodup, i.known, i.chain,
    fun n hn a ha => by rw [e a (List.mem_map.2 ⟨_, ha, rfl⟩)]; exact i.vals n hn a ha, i.code, i.sent, i.quiet⟩

theorem mem_others {os : List Task} {o : Task} (ho : o ∈ os) {a : Nat} (ha : a ∈ addrs o.env) : 0 < (others os).count a :=
  List.count_pos_iff.2 (List.mem_flatMap.2 ⟨o, ho, ha⟩)

theorem lookup_count {env : List (Name × Nat)} {n : Name} {a : Nat} (h : env.lookup n = some a) : 0 < (addrs env).count a :=
  List.count_pos_iff.2 (List.mem_map.2 ⟨_, lookup_mem h, rfl⟩)

theorem lookup_of_mem {env : List (Name × Nat)} {n : Name} (h : n ∈ names env) : ∃ a, env.lookup n = some a := by
  cases e : env.lookup n with
  | none => exact absurd h (lookup_none e)
  | some a => exact ⟨a, rfl⟩


theorem Inv1.seize {s : State} {t : Task} {os : List Task} (i : Inv1 comp s t os) {k : Kind} {choice : Option Nat} :
    acquire s k choice ≠ .panic ∧ ∀ s' a, acquire s k choice = .ok (s', a) →
      s'.cur = s.cur ∧ s'.queue = s.queue ∧ s'.tasks = s.tasks ∧ s'.taken = s.taken ∧ s'.appended = s.appended ∧
      s'.given = s.given ∧ s'.received = s.received ∧
      (s.cur ≠ a ∧ s.queue.count a = 0 ∧ (addrs t.env).count a = 0 ∧ (others os).count a = 0) ∧
      s.count ≤ s'.count ∧ a < s'.count ∧ (s'.heap a).busy = true ∧ ((s'.heap a).kind = .buf → (s'.heap a).refs = 1) ∧
      (∀ b, b ≠ a → s'.heap b = s.heap b) ∧
      (∀ b, s'.free.count b + (if a = b then 1 else 0) ≤ s.free.count b + (if s.count ≤ b ∧ a = b then 1 else 0)) := by
  cases choice with
  | none =>
    have hn := i.new s.count (Nat.le_refl _)
    have hne : s.cur ≠ s.count := by intro e; rw [if_pos e] at hn; omega
    have hb : (upd s.heap s.count ⟨k, false, 0, []⟩ s.count).busy = false := by simp [upd]
    simp only [acquire, Pool.seize]
    simp only [upd, if_true, Bool.false_eq_true, if_false]
    refine ⟨by simp, fun s' a e => ?_⟩
    simp only [Outcome.ok.injEq, Prod.mk.injEq] at e
    obtain ⟨rfl, rfl⟩ := e
    refine ⟨rfl, rfl, rfl, rfl, rfl, rfl, rfl, ⟨hne, by omega, by omega, by omega⟩, Nat.le_succ _, Nat.lt_succ_self _, by simp [upd], ?_, ?_, ?_⟩
    · intro hk; simp only [upd, if_true] at hk ⊢; rw [if_pos hk]; omega
    · intro b hb; simp [upd, hb]
    · intro b
      by_cases e : s.count = b
      · subst e; simp
      · simp [e]
  | some a =>
    simp only [acquire, Pool.seize]
    split
    · rename_i h
      obtain ⟨hf, hk⟩ := h
      obtain ⟨h1, h2⟩ := i.idle a hf
      have ht := i.tot a
      have hc : 0 < s.free.count a := List.count_pos_iff.2 hf
      have hne : s.cur ≠ a := by intro e; rw [if_pos e] at ht; omega
      have hlt : a < s.count := Nat.lt_of_not_le (fun hle => by have := i.new a hle; omega)
      simp only [h1, Bool.false_eq_true, if_false]
      refine ⟨by simp, fun s' a' e => ?_⟩
      simp only [Outcome.ok.injEq, Prod.mk.injEq] at e
      obtain ⟨rfl, rfl⟩ := e
      refine ⟨rfl, rfl, rfl, rfl, rfl, rfl, rfl, ⟨hne, by omega, by omega, by omega⟩, Nat.le_refl _, hlt, by simp [upd], ?_, ?_, ?_⟩
      · intro hk2
        simp only [upd, if_true] at hk2 ⊢
        rw [if_pos hk2, h2 hk2]; rfl
      · intro b hb; simp [upd, hb]
      · intro b
        show (s.free.erase a).count b + _ ≤ _
        by_cases e : a = b
        · subst e
          rw [List.count_erase_self]; simp; omega
        · rw [List.count_erase_of_ne (fun h => e h.symm)]; simp [e]
    · exact ⟨by simp, fun _ _ e => by cases e⟩

theorem Inv1.release {s : State} {t : Task} {os : List Task} (i : Inv1 comp s t os) {a : Nat} (ha : 0 < (addrs t.env).count a) :
    ∃ s', release s a = .ok s' ∧ s'.cur = s.cur ∧ s'.queue = s.queue ∧ s'.tasks = s.tasks ∧ s'.taken = s.taken ∧
      s'.appended = s.appended ∧ s'.given = s.given ∧ s'.received = s.received ∧ s'.count = s.count ∧ s'.free = a :: s.free ∧
      (s'.heap a).busy = false ∧ ((s'.heap a).kind = .buf → (s'.heap a).refs = 0) ∧ (s'.heap a).val = (s.heap a).val ∧
      (∀ b, b ≠ a → s'.heap b = s.heap b) := by
  obtain ⟨h1, h2⟩ := i.held a (by omega)
  simp only [Pool.release]
  by_cases hk : (s.heap a).kind = .buf
  · have := h2 hk
    rw [if_pos hk, this, if_neg (by omega), if_neg (by simp [h1])]
    exact ⟨_, rfl, rfl, rfl, rfl, rfl, rfl, rfl, rfl, rfl, rfl, by simp [upd], by simp [upd], by simp [upd], fun b hb => by simp [upd, hb]⟩
  · rw [if_neg hk, if_neg (by simp [h1])]
    exact ⟨_, rfl, rfl, rfl, rfl, rfl, rfl, rfl, rfl, rfl, rfl, by simp [upd], by simp [upd, hk], by simp [upd], fun b hb => by simp [upd, hb]⟩

/-- A goroutine gets an object. -/
theorem Inv1.acq {s : State} {t : Task} {os : List Task} (i : Inv1 comp s t os) {k : Kind} {choice : Option Nat} {s' : State} {a : Nat}
    (h : acquire s k choice = .ok (s', a)) {t' : Task} {n : Name} (ht : t'.env = (n, a) :: t.env)
    (hi : (∀ b ∈ addrs t.env, (s'.heap b).val = (s.heap b).val) → TaskInv comp s'.heap t') : Inv1 comp s' t' os := by
  obtain ⟨h1, h2, h3, h4, h5, h6, h7, ⟨h8, h9, h10, h11⟩, h12, h13, h14, h15, h16, h17⟩ := (i.seize (k := k) (choice := choice)).2 s' a h
  have hval : ∀ b, b ≠ a → (s'.heap b).val = (s.heap b).val := fun b hb => by rw [h16 b hb]
  have hadd : ∀ b, (addrs t'.env).count b = (addrs t.env).count b + (if a = b then 1 else 0) := fun b => by
    rw [ht]; simp only [addrs, List.map_cons, List.count_cons, beq_iff_eq]
  refine ⟨fun b => ?_, fun b hb => ?_, fun b hb => ?_, fun b hb => ?_, hi ?_, fun o ho => (i.theirs o ho).heap ?_, ?_, ?_⟩
  · have a1 := i.tot b
    have a2 := h17 b
    have a3 := hadd b
    have a4 := i.new b
    rw [h1, h2]
    by_cases e : s.count ≤ b ∧ a = b
    · have := a4 e.1; rw [if_pos e] at a2; omega
    · rw [if_neg e] at a2; omega
  · have a1 := i.new b (by omega)
    have a2 := h17 b
    have a3 := hadd b
    have e : a ≠ b := by omega
    rw [h1, h2]
    simp only [e, and_false, if_false] at a2 a3
    omega
  · have a2 := h17 b
    have hc : 0 < s'.free.count b := List.count_pos_iff.2 hb
    have e : b ≠ a := by
      intro e; subst e
      have a4 := i.tot b
      have a5 := i.new b
      by_cases h : s.count ≤ b
      · have := a5 h; simp only [h, and_true, if_true] at a2; omega
      · simp only [h, false_and, if_false, if_true] at a2; omega
    rw [h16 b e]
    refine i.idle b (List.count_pos_iff.1 ?_)
    have e' : ¬ a = b := fun h => e h.symm
    simp only [e', and_false, if_false] at a2
    omega
  · by_cases e : b = a
    · subst e; exact ⟨h14, h15⟩
    · rw [h16 b e]
      refine i.held b ?_
      have a3 := hadd b
      rw [h1, h2] at hb
      have e' : ¬ a = b := fun h => e h.symm
      simp only [e', if_false] at a3
      omega
  · intro b hb
    refine hval b (fun e => ?_)
    have : 0 < (addrs t.env).count b := List.count_pos_iff.2 hb
    rw [e] at this; omega
  · intro b hb
    refine hval b (fun e => ?_)
    have := mem_others ho hb
    rw [e] at this; omega
  · rw [h4, h5, h1, hval _ h8]; exact i.delayed
  · rw [h7, h6, h2, ← i.chan]
    congr 1
    refine List.map_congr_left (fun b hb => hval b (fun e => ?_))
    have : 0 < s.queue.count b := List.count_pos_iff.2 hb
    rw [e] at this; omega

/-- A goroutine gives an object back. -/
theorem Inv1.rel {s : State} {t : Task} {os : List Task} (i : Inv1 comp s t os) {n : Name} {a : Nat} (hl : t.env.lookup n = some a)
    {t' : Task} (ht : t'.env = without t.env n)
    (hi : ∀ h' : Nat → Obj, (∀ b, (h' b).val = (s.heap b).val) → TaskInv comp h' t') :
    ∃ s', Pool.release s a = .ok s' ∧ Inv1 comp s' t' os ∧ s'.tasks = s.tasks := by
  obtain ⟨s', h0, h1, h2, h3, h4, h5, h6, h7, h8, h9, h10, h11, h12, h13⟩ := i.release (lookup_count hl)
  have hval : ∀ b, (s'.heap b).val = (s.heap b).val := fun b => by
    by_cases e : b = a
    · rw [e, h12]
    · rw [h13 b e]
  have hadd : ∀ b, (addrs t'.env).count b + (if a = b then 1 else 0) = (addrs t.env).count b := fun b => by
    rw [ht]; exact count_without i.mine.nodup hl b
  have hfree : ∀ b, s'.free.count b = s.free.count b + (if a = b then 1 else 0) := fun b => by
    rw [h9]; simp only [List.count_cons, beq_iff_eq]
  refine ⟨s', h0, ⟨fun b => ?_, fun b hb => ?_, fun b hb => ?_, fun b hb => ?_, hi _ hval,
    fun o ho => (i.theirs o ho).heap (fun b _ => hval b), ?_, ?_⟩, h3⟩
  · have a1 := i.tot b
    have a2 := hadd b
    have a3 := hfree b
    rw [h1, h2]; omega
  · have a1 := i.new b (by omega)
    have a2 := hadd b
    have a3 := hfree b
    rw [h1, h2]; omega
  · by_cases e : b = a
    · rw [e]; exact ⟨h10, h11⟩
    · rw [h13 b e]
      rw [h9] at hb
      exact i.idle b ((List.mem_cons.1 hb).resolve_left e)
  · have a2 := hadd b
    rw [h1, h2] at hb
    by_cases e : b = a
    · exfalso
      subst e
      have a1 := i.tot b
      have := lookup_count hl
      simp only [if_true] at a2
      omega
    · rw [h13 b e]
      exact i.held b (by omega)
  · rw [h4, h5, h1, hval]; exact i.delayed
  · rw [h7, h6, h2, ← i.chan]
    congr 1
    exact List.map_congr_left (fun b _ => hval b)

/-- A goroutine writes to an object of its own. -/
theorem Inv1.set {s : State} {t : Task} {os : List Task} (i : Inv1 comp s t os) {n : Name} {a : Nat} (hl : t.env.lookup n = some a)
    (v : Bytes) {t' : Task} (ht : t'.env = t.env) (hi : TaskInv comp (setVal s a v).heap t') : Inv1 comp (setVal s a v) t' os := by
  have hc := lookup_count hl
  have htot := i.tot a
  have hne : s.cur ≠ a := by intro e; rw [if_pos e] at htot; omega
  have hval : ∀ b, b ≠ a → ((setVal s a v).heap b).val = (s.heap b).val := fun b hb => by simp [setVal, upd, hb]
  have hb : ∀ b, ((setVal s a v).heap b).busy = (s.heap b).busy ∧ ((setVal s a v).heap b).kind = (s.heap b).kind ∧
      ((setVal s a v).heap b).refs = (s.heap b).refs := fun b => by
    by_cases e : b = a
    · subst e; simp [setVal, upd]
    · simp [setVal, upd, e]
  refine ⟨fun b => ?_, fun b hb => ?_, fun b h => ?_, fun b h => ?_, hi, fun o ho => (i.theirs o ho).heap ?_, ?_, ?_⟩
  · rw [ht]; exact i.tot b
  · rw [ht]; exact i.new b hb
  · rw [(hb b).1, (hb b).2.1, (hb b).2.2]; exact i.idle b h
  · rw [(hb b).1, (hb b).2.1, (hb b).2.2]; rw [ht] at h; exact i.held b h
  · intro b hb
    refine hval b (fun e => ?_)
    have := mem_others ho hb
    rw [e] at this; omega
  · show s.taken.flatten ++ ((setVal s a v).heap s.cur).val = _
    rw [hval _ hne]; exact i.delayed
  · show s.received ++ s.queue.map _ = s.given
    rw [← i.chan]
    congr 1
    refine List.map_congr_left (fun b hb => hval b (fun e => ?_))
    have : 0 < s.queue.count b := List.count_pos_iff.2 hb
    rw [e] at this; omega


/-! ## Steps -/

theorem drop_eq {l : List Name} {n : Name} (h : n ∉ l) : drop l n = l := by
  simp only [drop]
  rw [List.filter_eq_self]
  intro x hx
  simp only [bne_iff_ne, ne_eq]
  intro e; exact h (e ▸ hx)

theorem mem_drop {l : List Name} {n x : Name} : x ∈ drop l n ↔ x ∈ l ∧ x ≠ n := by
  simp [drop]

theorem Chain.mono {live known known' : List Name} {fs : List Frame} (h : Chain live known fs)
    (h2 : ∀ x ∈ known, x ∈ known') : Chain live known' fs := by
  cases fs with
  | nil => trivial
  | cons f fs =>
    obtain ⟨a, b, c, d, e⟩ := h
    exact ⟨a, fun x hx => h2 x (b x hx), c, d, e⟩

theorem saved_mem {live saved : List Name} (h : live.filter (fun x => x ∈ saved) = saved) : ∀ x ∈ saved, x ∈ live := by
  intro x hx
  rw [← h] at hx
  exact (List.mem_filter.1 hx).1

theorem filter_cons_saved {live saved : List Name} (h : live.filter (fun x => x ∈ saved) = saved) {n : Name} (hn : n ∉ live) :
    (n :: live).filter (fun x => x ∈ saved) = saved := by
  rw [List.filter_cons_of_neg]
  · exact h
  · simp only [decide_eq_true_eq]; exact fun e => hn (saved_mem h n e)

theorem filter_drop_saved {live saved : List Name} (h : live.filter (fun x => x ∈ saved) = saved) {n : Name} (hn : n ∉ saved) :
    (drop live n).filter (fun x => x ∈ saved) = saved := by
  have : (drop live n).filter (fun x => x ∈ saved) = live.filter (fun x => x ∈ saved) := by
    simp only [drop, List.filter_filter]
    refine List.filter_congr (fun x _ => ?_)
    by_cases e : x ∈ saved
    · have : x ≠ n := fun h => hn (h ▸ e)
      simp [e, this]
    · simp [e]
  rw [this, h]

theorem Chain.cons {live known : List Name} {fs : List Frame} (h : Chain live known fs) {n : Name} (hn : n ∉ live) :
    Chain (n :: live) known fs := by
  cases fs with
  | nil => trivial
  | cons f fs =>
    obtain ⟨a, b, c, d, e⟩ := h
    exact ⟨filter_cons_saved a hn, b, c, fun x hx => List.mem_cons_of_mem _ (d x hx), e⟩

theorem tail_facts {h : Nat → Obj} {t : Task} (i : TaskInv comp h t) {x : Instr} {c : List Instr} (hc : t.code = x :: c)
    (hx : outs [x] = []) : (∃ pre, t.fn.code = pre ++ c) ∧
      (∃ ns, t.sent = ns.map (want comp t.fn t.inp) ∧ (ns ++ outs c).Sublist (outs t.fn.code)) ∧ (t.sent ≠ [] → noTake c = true) := by
  refine ⟨?_, ?_, ?_⟩
  · obtain ⟨pre, hp⟩ := i.code
    exact ⟨pre ++ [x], by rw [hp, hc, List.append_assoc]; rfl⟩
  · obtain ⟨ns, h1, h2⟩ := i.sent
    refine ⟨ns, h1, ?_⟩
    rw [hc] at h2
    have : outs (x :: c) = outs c := by
      have : outs (x :: c) = outs [x] ++ outs c := by
        rw [← List.singleton_append, outs, List.filterMap_append]; rfl
      rw [this, hx]; rfl
    rwa [this] at h2
  · intro hs
    have := i.quiet hs
    rw [hc] at this
    simp only [noTake, List.all_cons, Bool.and_eq_true] at this
    exact this.2

theorem lookups {h : Nat → Obj} {t : Task} (i : TaskInv comp h t) : ∀ {src : List Name}, (∀ m ∈ src, m ∈ t.known) →
    ∃ as, src.mapM (fun m => t.env.lookup m) = some as ∧ as.map (fun b => (h b).val) = src.map (want comp t.fn t.inp)
  | [], _ => ⟨[], rfl, rfl⟩
  | m :: src, hs => by
    obtain ⟨as, h1, h2⟩ := lookups i (src := src) (fun x hx => hs x (List.mem_cons_of_mem _ hx))
    have hk := hs m List.mem_cons_self
    obtain ⟨a, ha⟩ := lookup_of_mem (i.known m hk)
    refine ⟨a :: as, ?_, ?_⟩
    · simp only [List.mapM_cons, ha, h1]; rfl
    · simp only [List.map_cons, h2, i.vals m hk a (lookup_mem ha)]

/-- Contents of the objects after one has been written. -/
theorem setVal_val (s : State) (a b : Nat) (v : Bytes) :
    ((setVal s a v).heap b).val = if b = a then v else (s.heap b).val := by
  simp only [setVal, upd]
  split
  · rename_i e; rfl
  · rfl

theorem addr_inj {s : State} {t : Task} {os : List Task} (i : Inv1 comp s t os) {m n : Name} {a : Nat} (h1 : (m, a) ∈ t.env)
    (h2 : (n, a) ∈ t.env) : m = n := by
  have htot := i.tot a
  generalize t.env = env at h1 h2 htot
  induction env with
  | nil => cases h1
  | cons p env ih =>
    have hc : (addrs (p :: env)).count a = (addrs env).count a + (if p.2 = a then 1 else 0) := by
      simp only [addrs, List.map_cons, List.count_cons, beq_iff_eq]
    have hin : ∀ {x : Name}, (x, a) ∈ env → 0 < (addrs env).count a := fun h =>
      List.count_pos_iff.2 (List.mem_map.2 ⟨_, h, rfl⟩)
    rcases List.mem_cons.1 h1 with e1 | e1 <;> rcases List.mem_cons.1 h2 with e2 | e2
    · rw [← e1] at e2; cases e2; rfl
    · exfalso; have := hin e2; rw [← e1] at hc; simp only [if_true] at hc; rw [← e1] at htot; omega
    · exfalso; have := hin e1; rw [← e2] at hc; simp only [if_true] at hc; rw [← e2] at htot; omega
    · exact ih e1 e2 (by omega)

theorem code_take (fn : Fn) (inp : Name → Bytes) (n : Name) (h : take n ∈ fn.code) : want comp fn inp .item = inp .item := by
  cases fn
  case read => rfl
  case readSmall => rfl
  case single k => cases k <;> simp [Fn.code, writeMessageSingle, sendMessages] at h
  all_goals simp [Fn.code, writeMessageSingle, sendMessages] at h

theorem env_one {env : List (Name × Nat)} {n : Name} (h : names env = [n]) : ∃ a, env = [(n, a)] := by
  match env, h with
  | [(m, a)], h => simp [names] at h; subst h; exact ⟨a, rfl⟩

theorem goTask_inv {s : State} {t : Task} {os : List Task} (i : Inv1 comp s t os) (choice : Option Nat) :
    goTask comp s t choice ≠ .panic ∧ ∀ s' t', goTask comp s t choice = .ok (s', t') →
      Inv1 comp s' t' os ∧ s'.tasks = s.tasks := by
  have hm := i.mine
  have hchk := hm.chk
  unfold goTask
  cases hc : t.code with
  | nil => exact ⟨by simp, fun _ _ e => by cases e⟩
  | cons x c =>
    rw [hc] at hchk
    cases x with
    | acq n k d =>
      obtain ⟨hcode, hsent, hquiet⟩ := tail_facts hm hc rfl
      have hn : n ∉ names t.env := by
        cases d with
        | false => simp only [check, Bool.and_eq_true] at hchk; simpa using hchk.1
        | true =>
          cases hf : t.frames with
          | nil => rw [hf] at hchk; simp [check] at hchk
          | cons f fs => rw [hf] at hchk; simp only [check, Bool.and_eq_true] at hchk; simpa using hchk.1
      have hkn : n ∉ t.known := fun h => hn (hm.known n h)
      have hvals : ∀ (h' : Nat → Obj) (a : Nat), (∀ b ∈ addrs t.env, (h' b).val = (s.heap b).val) →
          ∀ m ∈ t.known, ∀ b, (m, b) ∈ (n, a) :: t.env → (h' b).val = want comp t.fn t.inp m := by
        intro h' a hv m hm1 b hb
        rcases List.mem_cons.1 hb with e | e
        · cases e; exact absurd hm1 hkn
        · rw [hv b (List.mem_map.2 ⟨_, e, rfl⟩)]; exact hm.vals m hm1 b e
      dsimp only
      obtain ⟨hp, hq⟩ := i.seize (k := k) (choice := choice)
      cases ha : acquire s k choice with
      | panic => exact absurd ha hp
      | err e => exact ⟨by simp, fun _ _ e => by cases e⟩
      | block => exact ⟨by simp, fun _ _ e => by cases e⟩
      | ok r =>
        obtain ⟨s1, a⟩ := r
        have htasks := (hq s1 a ha).2.2.1
        dsimp only
        rw [drop_eq hkn]
        cases d with
        | false =>
          simp only [Bool.false_eq_true, if_false]
          refine ⟨by simp, fun s' t' e => ?_⟩
          simp only [Outcome.ok.injEq, Prod.mk.injEq] at e
          obtain ⟨rfl, rfl⟩ := e
          refine ⟨i.acq ha rfl (fun hv => ⟨?_, ?_, ?_, ?_, hvals _ a hv, hcode, hsent, hquiet⟩), htasks⟩
          · simp only [check, Bool.and_eq_true] at hchk
            have := hchk.2
            rw [drop_eq hkn] at this
            exact this
          · exact List.nodup_cons.2 ⟨hn, hm.nodup⟩
          · exact fun m h => List.mem_cons_of_mem _ (hm.known m h)
          · exact hm.chain.cons hn
        | true =>
          simp only [if_true]
          cases hf : t.frames with
          | nil => rw [hf] at hchk; simp [check] at hchk
          | cons f fs =>
            refine ⟨by simp, fun s' t' e => ?_⟩
            simp only [Outcome.ok.injEq, Prod.mk.injEq] at e
            obtain ⟨rfl, rfl⟩ := e
            rw [hf] at hchk
            have hch := hm.chain
            rw [hf] at hch
            obtain ⟨c1, c2, c3, c4, c5, c6, c7⟩ := hch
            refine ⟨i.acq ha rfl (fun hv => ⟨?_, ?_, ?_, ?_, hvals _ a hv, hcode, hsent, hquiet⟩), htasks⟩
            · simp only [check, Bool.and_eq_true] at hchk
              have := hchk.2
              rw [drop_eq hkn] at this
              exact this
            · exact List.nodup_cons.2 ⟨hn, hm.nodup⟩
            · exact fun m h => List.mem_cons_of_mem _ (hm.known m h)
            · refine ⟨filter_cons_saved c1 hn, c2, c3, ?_, ?_, ?_, c7⟩
              · intro x hx
                rcases List.mem_cons.1 hx with rfl | hx
                · exact List.mem_cons_self
                · exact List.mem_cons_of_mem _ (c4 x hx)
              · intro x hx
                rcases List.mem_cons.1 hx with rfl | hx
                · exact fun h => hn (saved_mem c1 _ h)
                · exact c5 x hx
              · exact List.nodup_cons.2 ⟨fun h => hn (c4 _ h), c6⟩
    | fill n src =>
      obtain ⟨hcode, hsent, hquiet⟩ := tail_facts hm hc rfl
      simp only [check, Bool.and_eq_true] at hchk
      obtain ⟨⟨h1, h2⟩, h3⟩ := hchk
      obtain ⟨a, ha⟩ := lookup_of_mem (by simpa using h1 : n ∈ names t.env)
      obtain ⟨as, has, hav⟩ := lookups hm (src := src) (by simpa using h2)
      dsimp only
      rw [ha, has]
      dsimp only
      refine ⟨by simp, fun s' t' e => ?_⟩
      simp only [Outcome.ok.injEq, Prod.mk.injEq] at e
      obtain ⟨rfl, rfl⟩ := e
      refine ⟨i.set ha _ rfl ⟨h3, hm.nodup, ?_, ?_, ?_, hcode, hsent, hquiet⟩, rfl⟩
      · intro m h
        rcases List.mem_cons.1 h with rfl | h
        · simpa using h1
        · exact hm.known m h
      · exact hm.chain.mono (fun x h => List.mem_cons_of_mem _ h)
      · intro m h b hb
        rw [setVal_val]
        split
        · rename_i e
          subst e
          have : m = n := addr_inj i hb (lookup_mem ha)
          subst this
          rw [hav]
          obtain ⟨pre, hp⟩ := hm.code
          exact code_right t.fn t.inp (fill m src) (by rw [hp, hc]; simp)
        · rename_i e
          rcases List.mem_cons.1 h with rfl | h
          · exact absurd (Option.some.inj ((mem_lookup hm.nodup hb).symm.trans ha)) e
          · exact hm.vals m h b hb
    | clear n =>
      obtain ⟨hcode, hsent, hquiet⟩ := tail_facts hm hc rfl
      simp only [check, Bool.and_eq_true] at hchk
      obtain ⟨⟨h1, h2⟩, h3⟩ := hchk
      have h2' : n = .next := by simpa using h2
      subst h2'
      obtain ⟨a, ha⟩ := lookup_of_mem (by simpa using h1 : Name.next ∈ names t.env)
      dsimp only
      rw [ha]
      dsimp only
      refine ⟨by simp, fun s' t' e => ?_⟩
      simp only [Outcome.ok.injEq, Prod.mk.injEq] at e
      obtain ⟨rfl, rfl⟩ := e
      refine ⟨i.set ha _ rfl ⟨h3, hm.nodup, ?_, ?_, ?_, hcode, hsent, hquiet⟩, rfl⟩
      · intro m h
        rcases List.mem_cons.1 h with rfl | h
        · simpa using h1
        · exact hm.known m h
      · exact hm.chain.mono (fun x h => List.mem_cons_of_mem _ h)
      · intro m h b hb
        rw [setVal_val]
        split
        · rename_i e
          subst e
          have : m = .next := addr_inj i hb (lookup_mem ha)
          subst this
          rfl
        · rename_i e
          rcases List.mem_cons.1 h with rfl | h
          · exact absurd (Option.some.inj ((mem_lookup hm.nodup hb).symm.trans ha)) e
          · exact hm.vals m h b hb
    | append n =>
      obtain ⟨hcode, hsent, hquiet⟩ := tail_facts hm hc rfl
      simp only [check, Bool.and_eq_true] at hchk
      obtain ⟨h1, h3⟩ := hchk
      obtain ⟨a, ha⟩ := lookup_of_mem (hm.known n (by simpa using h1))
      dsimp only
      rw [ha]
      dsimp only
      refine ⟨by simp, fun s' t' e => ?_⟩
      simp only [Outcome.ok.injEq, Prod.mk.injEq] at e
      obtain ⟨rfl, rfl⟩ := e
      have htot := i.tot s.cur
      rw [if_pos rfl] at htot
      have hval : ∀ (v : Bytes) (b : Nat), b ≠ s.cur → ((setVal s s.cur v).heap b).val = (s.heap b).val := fun v b hb => by
        rw [setVal_val, if_neg hb]
      have hb : ∀ (v : Bytes) (b : Nat), ((setVal s s.cur v).heap b).busy = (s.heap b).busy ∧
          ((setVal s s.cur v).heap b).kind = (s.heap b).kind ∧ ((setVal s s.cur v).heap b).refs = (s.heap b).refs := fun v b => by
        by_cases e : b = s.cur
        · subst e; simp [setVal, upd]
        · simp [setVal, upd, e]
      refine ⟨⟨i.tot, i.new, fun b h => ?_, fun b h => ?_, TaskInv.heap (t := { t with code := c }) (h := s.heap)
        ⟨h3, hm.nodup, hm.known, hm.chain, hm.vals, hcode, hsent, hquiet⟩ ?_, fun o ho => (i.theirs o ho).heap ?_, ?_, ?_⟩, rfl⟩
      · dsimp only; rw [(hb _ b).1, (hb _ b).2.1, (hb _ b).2.2]; exact i.idle b h
      · dsimp only; rw [(hb _ b).1, (hb _ b).2.1, (hb _ b).2.2]; exact i.held b h
      · intro b hb
        refine hval _ b (fun e => ?_)
        have : 0 < (addrs t.env).count b := List.count_pos_iff.2 hb
        rw [e] at this; omega
      · intro b hb
        refine hval _ b (fun e => ?_)
        have := mem_others ho hb
        rw [e] at this; omega
      · show s.taken.flatten ++ ((setVal s s.cur _).heap s.cur).val = (s.appended ++ [_]).flatten
        rw [setVal_val, if_pos rfl, List.flatten_append, ← i.delayed, List.append_assoc]
        simp
      · show s.received ++ s.queue.map _ = s.given
        rw [← i.chan]
        congr 1
        refine List.map_congr_left (fun b hb => hval _ b (fun e => ?_))
        have : 0 < s.queue.count b := List.count_pos_iff.2 hb
        rw [e] at this; omega
    | swap n m =>
      obtain ⟨hcode, hsent, hquiet⟩ := tail_facts hm hc rfl
      have hs : t.sent = [] := by
        cases h : t.sent with
        | nil => rfl
        | cons b l =>
          have := hm.quiet (by rw [h]; simp)
          rw [hc] at this; simp [noTake] at this
      simp only [check, Bool.and_eq_true, List.isEmpty_iff, beq_iff_eq] at hchk
      obtain ⟨⟨⟨⟨⟨h1, h2⟩, h3⟩, h4⟩, h5⟩, h6⟩ := hchk
      obtain ⟨a, henv⟩ := env_one h2
      subst h4 h5
      have hl : t.env.lookup .next = some a := by rw [henv]; rfl
      have hw : without t.env .next = [] := by rw [henv]; rfl
      have hd : drop t.known .next = [] := by rw [h3]; rfl
      have hempty : (s.heap a).val = [] := hm.vals .next (by rw [h3]; simp) a (by rw [henv]; simp)
      dsimp only
      rw [hl]
      dsimp only
      rw [hw, hd]
      refine ⟨by simp, fun s' t' e => ?_⟩
      simp only [Outcome.ok.injEq, Prod.mk.injEq] at e
      obtain ⟨rfl, rfl⟩ := e
      have hcnt : ∀ b, (addrs t.env).count b = if a = b then 1 else 0 := fun b => by
        rw [henv]; simp only [addrs, List.map_cons, List.map_nil, List.count_cons, List.count_nil, beq_iff_eq, Nat.zero_add]
      have hcnt' : ∀ b, (addrs [(Name.old, s.cur)]).count b = if s.cur = b then 1 else 0 := fun b => by
        simp only [addrs, List.map_cons, List.map_nil, List.count_cons, List.count_nil, beq_iff_eq, Nat.zero_add]
      refine ⟨⟨fun b => ?_, fun b hb => ?_, i.idle, fun b hb => ?_, ⟨?_, ?_, ?_, ?_, ?_, hcode, ?_, ?_⟩, i.theirs, ?_, i.chan⟩, rfl⟩
      · have a1 := i.tot b
        have a2 := hcnt b
        have a3 := hcnt' b
        dsimp only
        omega
      · have a1 := i.new b hb
        have a2 := hcnt b
        have a3 := hcnt' b
        dsimp only
        omega
      · have a2 := hcnt b
        have a3 := hcnt' b
        dsimp only at hb ⊢
        exact i.held b (by omega)
      · exact h6
      · simp [names]
      · intro x hx; exact hx
      · show Chain _ _ t.frames; rw [h1]; trivial
      · intro x hx b hb
        have hx' : x = .old := by simpa using hx
        subst hx'
        have hb' : b = s.cur := by simpa using hb
        subst hb'
        show _ = setInp t.inp .old _ .old
        simp [setInp]
      · obtain ⟨ns, g1, g2⟩ := hsent
        have : ns = [] := by rw [hs] at g1; cases ns with | nil => rfl | cons _ _ => cases g1
        subst this
        exact ⟨[], by simpa using hs, g2⟩
      · exact fun h => absurd hs h
      · show (s.taken ++ [_]).flatten ++ (s.heap a).val = s.appended.flatten
        rw [hempty, List.flatten_append, ← i.delayed]; simp
    | give n =>
      obtain ⟨hcode, hsent, hquiet⟩ := tail_facts hm hc rfl
      simp only [check, Bool.and_eq_true, List.isEmpty_iff, beq_iff_eq] at hchk
      obtain ⟨⟨⟨h1, h2⟩, h3⟩, h6⟩ := hchk
      obtain ⟨a, henv⟩ := env_one h2
      have hl : t.env.lookup n = some a := by rw [henv]; simp
      have hw : without t.env n = [] := by rw [henv]; simp [without]
      have hd : drop t.known n = [] := by rw [h3]; simp [drop]
      dsimp only
      rw [hl]
      dsimp only
      rw [hw, hd]
      refine ⟨by simp, fun s' t' e => ?_⟩
      simp only [Outcome.ok.injEq, Prod.mk.injEq] at e
      obtain ⟨rfl, rfl⟩ := e
      have hcnt : ∀ b, (addrs t.env).count b = if a = b then 1 else 0 := fun b => by
        rw [henv]; simp only [addrs, List.map_cons, List.map_nil, List.count_cons, List.count_nil, beq_iff_eq, Nat.zero_add]
      have hq : ∀ b, (s.queue ++ [a]).count b = s.queue.count b + if a = b then 1 else 0 := fun b => by
        simp only [List.count_append, List.count_cons, List.count_nil, beq_iff_eq, Nat.zero_add]
      have h0 : ∀ b, (addrs []).count b = 0 := fun _ => rfl
      refine ⟨⟨fun b => ?_, fun b hb => ?_, i.idle, fun b hb => ?_,
        ⟨h6, by simp [names], fun x hx => (by cases hx), ?_, fun x hx => (by cases hx), hcode, hsent, hquiet⟩, i.theirs, i.delayed, ?_⟩, rfl⟩
      · have a1 := i.tot b
        have a2 := hcnt b
        have a3 := hq b
        have a4 := h0 b
        dsimp only
        omega
      · have a1 := i.new b hb
        have a2 := hcnt b
        have a3 := hq b
        have a4 := h0 b
        dsimp only
        omega
      · have a2 := hcnt b
        have a3 := hq b
        have a4 := h0 b
        dsimp only at hb ⊢
        exact i.held b (by omega)
      · show Chain _ _ t.frames; rw [h1]; trivial
      · show s.received ++ (s.queue ++ [a]).map _ = s.given ++ [_]
        rw [List.map_append, ← List.append_assoc, i.chan]; rfl
    | take n =>
      obtain ⟨hcode, hsent, hquiet⟩ := tail_facts hm hc rfl
      have hs : t.sent = [] := by
        cases h : t.sent with
        | nil => rfl
        | cons b l =>
          have := hm.quiet (by rw [h]; simp)
          rw [hc] at this; simp [noTake] at this
      simp only [check, Bool.and_eq_true, List.isEmpty_iff, beq_iff_eq] at hchk
      obtain ⟨⟨⟨⟨h1, h2⟩, h3⟩, h4⟩, h6⟩ := hchk
      subst h4
      have henv : t.env = [] := by
        cases h : t.env with
        | nil => rfl
        | cons _ _ => rw [h] at h2; simp [names] at h2
      dsimp only
      cases hq : s.queue with
      | nil => exact ⟨by simp, fun _ _ e => by cases e⟩
      | cons a q =>
        dsimp only
        rw [henv, h3]
        refine ⟨by simp, fun s' t' e => ?_⟩
        simp only [Outcome.ok.injEq, Prod.mk.injEq] at e
        obtain ⟨rfl, rfl⟩ := e
        have hcnt : ∀ b, (addrs t.env).count b = 0 := fun b => by rw [henv]; rfl
        have hcnt' : ∀ b, (addrs [(Name.item, a)]).count b = if a = b then 1 else 0 := fun b => by
          simp only [addrs, List.map_cons, List.map_nil, List.count_cons, List.count_nil, beq_iff_eq, Nat.zero_add]
        have hqq : ∀ b, s.queue.count b = q.count b + if a = b then 1 else 0 := fun b => by
          rw [hq]; simp only [List.count_cons, beq_iff_eq]
        refine ⟨⟨fun b => ?_, fun b hb => ?_, i.idle, fun b hb => ?_, ⟨h6, by simp [names], fun x hx => hx, ?_, ?_, hcode, ?_, ?_⟩,
          i.theirs, i.delayed, ?_⟩, rfl⟩
        · have a1 := i.tot b
          have a2 := hcnt b
          have a3 := hcnt' b
          have a4 := hqq b
          dsimp only
          omega
        · have a1 := i.new b hb
          have a2 := hcnt b
          have a3 := hcnt' b
          have a4 := hqq b
          dsimp only
          omega
        · have a2 := hcnt b
          have a3 := hcnt' b
          have a4 := hqq b
          dsimp only at hb ⊢
          exact i.held b (by omega)
        · show Chain _ _ t.frames; rw [h1]; trivial
        · intro x hx b hb
          have hx' : x = .item := by simpa using hx
          subst hx'
          have hb' : b = a := by simpa using hb
          subst hb'
          obtain ⟨pre, hp⟩ := hm.code
          show _ = want comp t.fn _ .item
          rw [code_take t.fn _ .item (by rw [hp, hc]; simp)]
          simp [setInp]
        · obtain ⟨ns, g1, g2⟩ := hsent
          have : ns = [] := by rw [hs] at g1; cases ns with | nil => rfl | cons _ _ => cases g1
          subst this
          exact ⟨[], by simpa using hs, g2⟩
        · exact fun h => absurd hs h
        · show (s.received ++ [_]) ++ q.map _ = s.given
          rw [← i.chan, hq]; simp
    | out n =>
      simp only [check, Bool.and_eq_true] at hchk
      obtain ⟨⟨h1, h2⟩, h3⟩ := hchk
      have h1' : n ∈ t.known := by simpa using h1
      obtain ⟨a, ha⟩ := lookup_of_mem (hm.known n h1')
      dsimp only
      rw [ha]
      dsimp only
      refine ⟨by simp, fun s' t' e => ?_⟩
      simp only [Outcome.ok.injEq, Prod.mk.injEq] at e
      obtain ⟨rfl, rfl⟩ := e
      refine ⟨⟨i.tot, i.new, i.idle, i.held, ⟨h3, hm.nodup, hm.known, hm.chain, hm.vals, ?_, ?_, fun _ => h2⟩, i.theirs, i.delayed, i.chan⟩, rfl⟩
      · obtain ⟨pre, hp⟩ := hm.code
        exact ⟨pre ++ [out n], by rw [hp, hc, List.append_assoc]; rfl⟩
      · obtain ⟨ns, g1, g2⟩ := hm.sent
        refine ⟨ns ++ [n], ?_, ?_⟩
        · show t.sent ++ _ = _
          rw [g1, List.map_append, hm.vals n h1' a (lookup_mem ha)]; rfl
        · rw [hc] at g2
          rw [List.append_assoc]; exact g2
    | release n =>
      obtain ⟨hcode, hsent, hquiet⟩ := tail_facts hm hc rfl
      simp only [check, Bool.and_eq_true, List.isEmpty_iff] at hchk
      obtain ⟨⟨h1, h2⟩, h3⟩ := hchk
      obtain ⟨a, ha⟩ := lookup_of_mem (by simpa using h2 : n ∈ names t.env)
      dsimp only
      rw [ha]
      dsimp only
      obtain ⟨s1, r1, r2, r3⟩ := i.rel ha (t' := { t with code := c, env := without t.env n, known := drop t.known n }) rfl
        (fun h' hv => ⟨by dsimp only; rw [names_without]; exact h3, by
          dsimp only; rw [names_without]; exact hm.nodup.filter _, fun x hx => by
            dsimp only at hx ⊢; rw [names_without]; exact mem_drop.2 ⟨hm.known x (mem_drop.1 hx).1, (mem_drop.1 hx).2⟩, by
            dsimp only; rw [h1]; trivial, fun x hx b hb => by
            rw [hv]; exact hm.vals x (mem_drop.1 hx).1 b (List.mem_filter.1 hb).1, hcode, hsent, hquiet⟩)
      rw [r1]
      refine ⟨by simp, fun s' t' e => ?_⟩
      simp only [Outcome.ok.injEq, Prod.mk.injEq] at e
      obtain ⟨rfl, rfl⟩ := e
      exact ⟨r2, r3⟩
    | enter =>
      obtain ⟨hcode, hsent, hquiet⟩ := tail_facts hm hc rfl
      simp only [check] at hchk
      dsimp only
      refine ⟨by simp, fun s' t' e => ?_⟩
      simp only [Outcome.ok.injEq, Prod.mk.injEq] at e
      obtain ⟨rfl, rfl⟩ := e
      refine ⟨⟨i.tot, i.new, i.idle, i.held, ⟨hchk, hm.nodup, hm.known, ?_, hm.vals, hcode, hsent, hquiet⟩, i.theirs, i.delayed, i.chan⟩, rfl⟩
      exact ⟨List.filter_eq_self.2 (fun x hx => decide_eq_true hx), fun _ h => h, hm.known, by simp, by simp, List.nodup_nil, hm.chain⟩
    | exit =>
      dsimp only
      cases hf : t.frames with
      | nil => rw [hf] at hchk; simp [check] at hchk
      | cons f fs =>
        obtain ⟨saved, known, df⟩ := f
        have hch := hm.chain
        rw [hf] at hch hchk
        obtain ⟨c1, c2, c3, c4, c5, c6, c7⟩ := hch
        cases df with
        | nil =>
          obtain ⟨hcode, hsent, hquiet⟩ := tail_facts hm hc rfl
          dsimp only
          refine ⟨by simp, fun s' t' e => ?_⟩
          simp only [Outcome.ok.injEq, Prod.mk.injEq] at e
          obtain ⟨rfl, rfl⟩ := e
          have hnames : names (t.env.filter (fun p => p.1 ∈ saved)) = saved := by
            have c1' : (t.env.map (fun x => x.1)).filter (fun x => x ∈ saved) = saved := c1
            rw [List.filter_map] at c1'
            exact c1'
          have hle := fun b => count_filter_le t.env (fun p => p.1 ∈ saved) b
          refine ⟨⟨fun b => ?_, fun b hb => ?_, i.idle, fun b hb => i.held b ?_, ⟨?_, ?_, ?_, ?_, ?_, hcode, hsent, hquiet⟩, i.theirs,
            i.delayed, i.chan⟩, rfl⟩
          · have := i.tot b; have := hle b; dsimp only; omega
          · have := i.new b hb; have := hle b; dsimp only; omega
          · have := hle b; dsimp only at hb; omega
          · dsimp only; rw [hnames]; exact hchk
          · dsimp only; rw [hnames]; have := hm.nodup.filter (fun x => decide (x ∈ saved)); rw [c1] at this; exact this
          · dsimp only; rw [hnames]; exact c3
          · dsimp only; rw [hnames]; exact c7
          · intro x hx b hb
            exact hm.vals x (c2 x hx) b (List.mem_filter.1 hb).1
        | cons n df =>
          obtain ⟨a, ha⟩ := lookup_of_mem (c4 n List.mem_cons_self)
          dsimp only
          rw [ha]
          dsimp only
          have hns : n ∉ saved := c5 n List.mem_cons_self
          obtain ⟨hndf, hdf⟩ := List.nodup_cons.1 c6
          obtain ⟨s1, r1, r2, r3⟩ := i.rel ha
            (t' := { t with env := without t.env n, known := drop t.known n, frames := ⟨saved, known, df⟩ :: fs }) rfl
            (fun h' hv => ⟨by dsimp only; rw [hc]; exact hchk, by
              dsimp only; rw [names_without]; exact hm.nodup.filter _, fun x hx => by
                dsimp only at hx ⊢; rw [names_without]; exact mem_drop.2 ⟨hm.known x (mem_drop.1 hx).1, (mem_drop.1 hx).2⟩, by
                dsimp only; rw [names_without]
                exact ⟨filter_drop_saved c1 hns,
                  fun x hx => mem_drop.2 ⟨c2 x hx, fun e => hns (e ▸ c3 x hx)⟩, c3,
                  fun x hx => mem_drop.2 ⟨c4 x (List.mem_cons_of_mem _ hx), fun e => hndf (e ▸ hx)⟩,
                  fun x hx => c5 x (List.mem_cons_of_mem _ hx), hdf, c7⟩, fun x hx b hb => by
                rw [hv]; exact hm.vals x (mem_drop.1 hx).1 b (List.mem_filter.1 hb).1, hm.code, hm.sent, hm.quiet⟩)
          rw [r1]
          refine ⟨by simp, fun s' t' e => ?_⟩
          simp only [Outcome.ok.injEq, Prod.mk.injEq] at e
          obtain ⟨rfl, rfl⟩ := e
          rw [hc] at r2
          exact ⟨r2, r3⟩


/-! ## All goroutines -/

/-- A goroutine that has nothing. -/
def nobody : Task := ⟨.readSmall, [], [], [], fun _ => [], [], []⟩

theorem nobody_inv (h : Nat → Obj) : TaskInv comp h nobody :=
  ⟨rfl, List.nodup_nil, fun _ h => h, trivial, fun _ h => (by cases h), ⟨[take .item], rfl⟩, ⟨[], rfl, List.Sublist.refl _⟩, fun h => absurd rfl h⟩

/-- The invariant. -/
def Inv (comp : Name → Bytes → List Bytes → Bytes) (s : State) : Prop := Inv1 comp s nobody s.tasks

theorem count_others (ts : List Task) (i : Nat) (t : Task) (h : ts[i]? = some t) (a : Nat) :
    (others ts).count a = (addrs t.env).count a + (others (ts.eraseIdx i)).count a := by
  induction ts generalizing i with
  | nil => cases h
  | cons x ts ih =>
    cases i with
    | zero => cases h; simp [others]
    | succ i =>
      have := ih i h
      simp only [others, List.flatMap_cons, List.count_append, List.eraseIdx_cons_succ] at this ⊢
      omega

theorem erase_set (ts : List Task) (i : Nat) (t : Task) : (ts.set i t).eraseIdx i = ts.eraseIdx i := by
  induction ts generalizing i with
  | nil => rfl
  | cons x ts ih => cases i with
    | zero => rfl
    | succ i => simp [ih]

theorem mem_erase_or {ts : List Task} {i : Nat} {t o : Task} (h : ts[i]? = some t) (ho : o ∈ ts) : o = t ∨ o ∈ ts.eraseIdx i := by
  induction ts generalizing i with
  | nil => cases ho
  | cons x ts ih =>
    cases i with
    | zero =>
      cases h
      rcases List.mem_cons.1 ho with h | h
      · exact .inl h
      · exact .inr h
    | succ i =>
      rcases List.mem_cons.1 ho with h1 | h1
      · exact .inr (by rw [h1]; exact List.mem_cons_self)
      · exact (ih h h1).imp id (fun h => List.mem_cons_of_mem _ h)

theorem Inv1.focus {s : State} {ts : List Task} (i : Inv1 comp s nobody ts) {j : Nat} {t : Task} (h : ts[j]? = some t) :
    Inv1 comp s t (ts.eraseIdx j) := by
  have hc := count_others ts j t h
  have h0 : ∀ a, (addrs nobody.env).count a = 0 := fun _ => rfl
  refine ⟨fun a => ?_, fun a ha => ?_, i.idle, fun a ha => i.held a ?_, i.theirs t (List.mem_of_getElem? h),
    fun o ho => i.theirs o (List.mem_of_mem_eraseIdx ho), i.delayed, i.chan⟩
  · have := i.tot a; have := hc a; have := h0 a; omega
  · have := i.new a ha; have := hc a; have := h0 a; omega
  · have := hc a; have := h0 a; omega

theorem Inv1.unfocus {s : State} {ts : List Task} {j : Nat} {t t' : Task} (h : ts[j]? = some t) (i : Inv1 comp s t' (ts.eraseIdx j)) :
    Inv1 comp s nobody (ts.set j t') := by
  have hj : j < ts.length := (List.getElem?_eq_some_iff.1 h).1
  have hs : (ts.set j t')[j]? = some t' := by simp [hj]
  have hc := count_others (ts.set j t') j t' hs
  rw [erase_set] at hc
  have h0 : ∀ a, (addrs nobody.env).count a = 0 := fun _ => rfl
  refine ⟨fun a => ?_, fun a ha => ?_, i.idle, fun a ha => i.held a ?_, nobody_inv _, fun o ho => ?_, i.delayed, i.chan⟩
  · have := i.tot a; have := hc a; have := h0 a; omega
  · have := i.new a ha; have := hc a; have := h0 a; omega
  · have := hc a; have := h0 a; omega
  · rcases mem_erase_or hs ho with rfl | ho
    · exact i.mine
    · rw [erase_set] at ho; exact i.theirs o ho

theorem Inv1.tasks {s : State} {t : Task} {os : List Task} (i : Inv1 comp s t os) (ts : List Task) : Inv1 comp { s with tasks := ts } t os :=
  ⟨i.tot, i.new, i.idle, i.held, i.mine, i.theirs, i.delayed, i.chan⟩

theorem outs_suffix {a b c : List Instr} (h : c = a ++ b) : (outs b).Sublist (outs c) := by
  rw [h, outs, outs, List.filterMap_append]
  exact List.sublist_append_right _ _

theorem step_inv {s : State} (i : Inv comp s) (a : Act) : step comp s a ≠ .panic ∧ ∀ s', step comp s a = .ok s' → Inv comp s' := by
  cases a with
  | start fn inp =>
    refine ⟨by simp [step], fun s' e => ?_⟩
    simp only [step, Outcome.ok.injEq] at e
    subst e
    have h0 : others (s.tasks ++ [Task.init fn inp]) = others s.tasks := by simp [others, Task.init, addrs]
    refine Inv1.tasks (ts := s.tasks ++ [Task.init fn inp]) (s := s) ⟨?_, ?_, i.idle, ?_, i.mine, fun o ho => ?_, i.delayed, i.chan⟩
    · rw [h0]; exact i.tot
    · rw [h0]; exact i.new
    · rw [h0]; exact i.held
    · rcases List.mem_append.1 ho with h | h
      · exact i.theirs o h
      · rw [List.mem_singleton.1 h]
        exact ⟨check_code fn, List.nodup_nil, fun _ h => h, trivial, fun _ h => (by cases h), ⟨[], rfl⟩, ⟨[], rfl, List.Sublist.refl _⟩,
          fun h => absurd rfl h⟩
  | go j choice =>
    simp only [step]
    cases ht : s.tasks[j]? with
    | none => exact ⟨by simp, fun _ e => by cases e⟩
    | some t =>
      dsimp only
      have hf := Inv1.focus i ht
      obtain ⟨h1, h2⟩ := goTask_inv hf choice
      cases hg : goTask comp s t choice with
      | panic => exact absurd hg h1
      | block => exact ⟨by simp, fun _ e => by cases e⟩
      | err e => exact ⟨by simp, fun _ e => by cases e⟩
      | ok r =>
        obtain ⟨s1, t1⟩ := r
        obtain ⟨h3, h4⟩ := h2 s1 t1 hg
        refine ⟨by simp, fun s' e => ?_⟩
        simp only [Outcome.ok.injEq] at e
        subst e
        rw [h4]
        exact (h3.unfocus ht).tasks _
  | leave j =>
    simp only [step]
    cases ht : s.tasks[j]? with
    | none => exact ⟨by simp, fun _ e => by cases e⟩
    | some t =>
      dsimp only
      split
      · exact ⟨by simp, fun _ e => by cases e⟩
      · rename_i hfr
        refine ⟨by simp, fun s' e => ?_⟩
        simp only [Outcome.ok.injEq] at e
        subst e
        have hf := Inv1.focus i ht
        have hm := hf.mine
        refine (Inv1.unfocus ht (t' := { t with code := toExit 0 t.code }) (s := s) ⟨hf.tot, hf.new, hf.idle, hf.held, ?_, hf.theirs,
          hf.delayed, hf.chan⟩).tasks _
        obtain ⟨pre, hp⟩ := toExit_suffix 0 t.code
        refine ⟨?_, hm.nodup, hm.known, hm.chain, hm.vals, ?_, ?_, ?_⟩
        · have hchk := hm.chk
          dsimp only
          cases hfs : t.frames with
          | nil => exact absurd hfs hfr
          | cons f fs =>
            rw [hfs] at hchk
            obtain ⟨c', e1, e2⟩ := check_toExit t.code _ _ [] f fs hchk
            rw [List.length_nil] at e1
            rw [e1]; exact e2
        · obtain ⟨q, hq⟩ := hm.code
          exact ⟨q ++ pre, by rw [hq, List.append_assoc, ← hp]⟩
        · obtain ⟨ns, g1, g2⟩ := hm.sent
          exact ⟨ns, g1, (List.Sublist.append_left (outs_suffix hp) ns).trans g2⟩
        · intro hs
          have := hm.quiet hs
          rw [hp] at this
          simp only [noTake, List.all_append, Bool.and_eq_true] at this
          exact this.2
  | forget a =>
    refine ⟨by simp [step], fun s' e => ?_⟩
    simp only [step, Outcome.ok.injEq] at e
    subst e
    have hle : ∀ b, (s.free.erase a).count b ≤ s.free.count b := fun b => List.Sublist.count_le b List.erase_sublist
    refine ⟨fun b => ?_, fun b hb => ?_, fun b hb => i.idle b (List.mem_of_mem_erase hb), i.held, i.mine, i.theirs, i.delayed, i.chan⟩
    · have := i.tot b; have := hle b; dsimp only; omega
    · have := i.new b hb; have := hle b; dsimp only; omega

theorem init_inv : Inv comp State.init := by
  refine ⟨fun a => ?_, fun a ha => ?_, fun a ha => (by cases ha), fun a ha => ⟨rfl, fun _ => rfl⟩, nobody_inv _, fun o ho => (by cases ho), rfl, rfl⟩
  · show 0 + (if (0 : Nat) = a then 1 else 0) + 0 + 0 + 0 ≤ 1
    split <;> omega
  · have : ¬ 0 = a := fun e => by subst e; exact absurd ha (by decide)
    show 0 + (if (0 : Nat) = a then 1 else 0) + 0 + 0 + 0 = 0
    rw [if_neg this]

theorem inv {s : State} (h : Reachable comp s) : Inv comp s := by
  induction h with
  | init => exact init_inv
  | step a _ hs ih => exact (step_inv ih a).2 _ hs

theorem run_reachable : ∀ {as : List Act} {s s' : State}, Reachable comp s → run comp s as = .ok s' → Reachable comp s'
  | [], _, _, hr, h => by cases h; exact hr
  | a :: as, s, s', hr, h => by
    simp only [run] at h
    split at h
    · exact run_reachable (.step a hr ‹_›) h
    · rename_i hx; exact absurd h (hx _)


/-! ## What was received -/

theorem goTask_fn {s s' : State} {t t' : Task} {choice : Option Nat} (h : goTask comp s t choice = .ok (s', t')) :
    t'.fn = t.fn ∧ (∀ v ∈ s.taken, v ∈ s'.taken) ∧ (∀ v ∈ s.received, v ∈ s'.received) ∧
      (t'.inp = t.inp ∨ (∃ n m c, t.code = swap n m :: c ∧ t'.inp m ∈ s'.taken) ∨ (∃ n c, t.code = take n :: c ∧ t'.inp n ∈ s'.received)) ∧
      (∀ n m, swap n m ∈ t.code → swap n m ∈ t'.code ∨ t'.inp m ∈ s'.taken) ∧
      (∀ n, take n ∈ t.code → take n ∈ t'.code ∨ t'.inp n ∈ s'.received) := by
  unfold goTask at h
  cases hc : t.code with
  | nil => rw [hc] at h; cases h
  | cons x c =>
    rw [hc] at h
    cases x <;> dsimp only at h
    case acq n k d =>
      cases ha : acquire s k choice with
      | ok r =>
        have hr : r.1.taken = s.taken ∧ r.1.received = s.received := by
          cases choice <;> simp only [acquire, seize] at ha
          · split at ha
            · cases ha
            · cases ha; exact ⟨rfl, rfl⟩
          · split at ha
            · split at ha
              · cases ha
              · cases ha; exact ⟨rfl, rfl⟩
            · cases ha
        rw [ha] at h
        dsimp only at h
        split at h
        · split at h
          · cases h
            refine ⟨rfl, fun v hv => by rw [hr.1]; exact hv, fun v hv => by rw [hr.2]; exact hv, .inl rfl, ?_, ?_⟩
            · intro n m hm; exact .inl (by simpa using hm)
            · intro n hm; exact .inl (by simpa using hm)
          · cases h
        · cases h
          refine ⟨rfl, fun v hv => by rw [hr.1]; exact hv, fun v hv => by rw [hr.2]; exact hv, .inl rfl, ?_, ?_⟩
          · intro n m hm; exact .inl (by simpa using hm)
          · intro n hm; exact .inl (by simpa using hm)
      | err e => rw [ha] at h; cases h
      | panic => rw [ha] at h; cases h
      | block => rw [ha] at h; cases h
    case swap n m =>
      split at h
      · cases h
        have hin : (s.heap s.cur).val ∈ s.taken ++ [(s.heap s.cur).val] := by simp
        have hinp : setInp t.inp m (s.heap s.cur).val m = (s.heap s.cur).val := by simp [setInp]
        refine ⟨rfl, fun v hv => List.mem_append_left _ hv, fun v hv => hv, .inr (.inl ⟨n, m, c, rfl, by simp only [hinp]; exact hin⟩), ?_, ?_⟩
        · intro n' m' hm
          rcases List.mem_cons.1 hm with e | e
          · cases e; exact .inr (by simp only [hinp]; exact hin)
          · exact .inl e
        · intro n' hm; exact .inl (by simpa using hm)
      · cases h
    case take n =>
      split at h
      · rename_i a q hq
        cases h
        have hin : (s.heap a).val ∈ s.received ++ [(s.heap a).val] := by simp
        have hinp : setInp t.inp n (s.heap a).val n = (s.heap a).val := by simp [setInp]
        refine ⟨rfl, fun v hv => hv, fun v hv => List.mem_append_left _ hv, .inr (.inr ⟨n, c, rfl, by simp only [hinp]; exact hin⟩), ?_, ?_⟩
        · intro n' m' hm; exact .inl (by simpa using hm)
        · intro n' hm
          rcases List.mem_cons.1 hm with e | e
          · cases e; exact .inr (by simp only [hinp]; exact hin)
          · exact .inl e
      · cases h
    case release n =>
      split at h
      · rename_i a ha
        cases hr : Pool.release s a with
        | ok r =>
          have hr' : r.taken = s.taken ∧ r.received = s.received := by
            simp only [Pool.release] at hr
            split at hr
            · split at hr
              · cases hr; exact ⟨rfl, rfl⟩
              · split at hr
                · cases hr
                · cases hr; exact ⟨rfl, rfl⟩
            · split at hr
              · cases hr
              · cases hr; exact ⟨rfl, rfl⟩
          rw [hr] at h
          cases h
          refine ⟨rfl, fun v hv => by rw [hr'.1]; exact hv, fun v hv => by rw [hr'.2]; exact hv, .inl rfl, ?_, ?_⟩
          · intro n m hm; exact .inl (by simpa using hm)
          · intro n hm; exact .inl (by simpa using hm)
        | err e => rw [hr] at h; cases h
        | panic => rw [hr] at h; cases h
        | block => rw [hr] at h; cases h
      · cases h
    case exit =>
      split at h
      · rename_i saved known n df fs hf
        split at h
        · rename_i a ha
          cases hr : Pool.release s a with
          | ok r =>
            have hr' : r.taken = s.taken ∧ r.received = s.received := by
              simp only [Pool.release] at hr
              split at hr
              · split at hr
                · cases hr; exact ⟨rfl, rfl⟩
                · split at hr
                  · cases hr
                  · cases hr; exact ⟨rfl, rfl⟩
              · split at hr
                · cases hr
                · cases hr; exact ⟨rfl, rfl⟩
            rw [hr] at h
            cases h
            refine ⟨rfl, fun v hv => by rw [hr'.1]; exact hv, fun v hv => by rw [hr'.2]; exact hv, .inl rfl, ?_, ?_⟩
            · intro n m hm; exact .inl (by simpa using hm)
            · intro n hm; exact .inl (by simpa using hm)
          | err e => rw [hr] at h; cases h
          | panic => rw [hr] at h; cases h
          | block => rw [hr] at h; cases h
        · cases h
      · cases h
        refine ⟨rfl, fun v hv => hv, fun v hv => hv, .inl rfl, ?_, ?_⟩
        · intro n m hm; exact .inl (by simpa using hm)
        · intro n hm; exact .inl (by simpa using hm)
      · cases h
    all_goals
      first
      | (split at h
         · cases h
           refine ⟨rfl, fun v hv => hv, fun v hv => hv, .inl rfl, ?_, ?_⟩
           · intro n m hm; exact .inl (by simpa using hm)
           · intro n hm; exact .inl (by simpa using hm)
         · cases h)
      | (cases h
         refine ⟨rfl, fun v hv => hv, fun v hv => hv, .inl rfl, ?_, ?_⟩
         · intro n m hm; exact .inl (by simpa using hm)
         · intro n hm; exact .inl (by simpa using hm))

/-- What a goroutine has received was taken from a delayed buffer, or from the channel. -/
def Got (s : State) (t : Task) : Prop :=
  (t.fn = .flush → swap .next .old ∈ t.code ∨ t.inp .old ∈ s.taken) ∧ (t.fn = .read → take .item ∈ t.code ∨ t.inp .item ∈ s.received)

theorem suffix_cases {α : Type} : ∀ {l pre c : List α}, l = pre ++ c → c = l ∨ ∃ x l', l = x :: l' ∧ ∃ pre', l' = pre' ++ c
  | l, [], c, h => .inl h.symm
  | l, x :: pre, c, h => .inr ⟨x, pre ++ c, h, pre, rfl⟩

theorem got_leave {s : State} {t : Task} (hm : TaskInv comp s.heap t) (hg : Got s t) (hf : t.frames ≠ []) :
    Got s { t with code := toExit 0 t.code } := by
  obtain ⟨pre, hp⟩ := hm.code
  have hchk := hm.chk
  cases hfs : t.frames with
  | nil => exact absurd hfs hf
  | cons f fs =>
    rw [hfs] at hchk
    refine ⟨fun hfn => ?_, fun hfn => ?_⟩
    · have hfn' : t.fn = .flush := hfn
      rcases hg.1 hfn' with h | h
      · exfalso
        rw [hfn'] at hp
        rcases suffix_cases hp with e | ⟨x, l, e1, pre1, e2⟩
        · rw [e] at hchk; simp [Fn.code, check] at hchk
        · cases e1
          rcases suffix_cases e2 with e | ⟨x, l, e1, pre2, e3⟩
          · rw [e] at hchk; simp [check] at hchk
          · cases e1
            rcases suffix_cases e3 with e | ⟨x, l, e1, pre2, e4⟩
            · rw [e] at hchk; simp [check] at hchk
            · cases e1
              have : swap .next .old ∈ sendMessages .old true ++ [Instr.release .old] := by
                have e5 : sendMessages .old true ++ [Instr.release .old] = pre2 ++ t.code := e4
                rw [e5]; exact List.mem_append_right _ h
              simp [sendMessages] at this
      · exact .inr h
    · have hfn' : t.fn = .read := hfn
      rcases hg.2 hfn' with h | h
      · exfalso
        rw [hfn'] at hp
        rcases suffix_cases hp with e | ⟨x, l, e1, pre1, e2⟩
        · rw [e] at hchk; simp [Fn.code, check] at hchk
        · cases e1
          have : take .item ∈ [out .item, Instr.release .item] := by
            rw [e2]; exact List.mem_append_right _ h
          simp at this
      · exact .inr h

theorem got {s : State} (h : Reachable comp s) : ∀ t ∈ s.tasks, Got s t := by
  induction h with
  | init => intro t ht; cases ht
  | @step s s' a hr hs ih =>
    have hi := inv hr
    cases a with
    | start fn inp =>
      simp only [step, Outcome.ok.injEq] at hs
      subst hs
      intro t ht
      rcases List.mem_append.1 ht with h | h
      · exact ih t h
      · rw [List.mem_singleton.1 h]
        refine ⟨fun e => .inl ?_, fun e => .inl ?_⟩
        · have e' : fn = .flush := e
          subst e'; simp [Task.init, Fn.code]
        · have e' : fn = .read := e
          subst e'; simp [Task.init, Fn.code]
    | go j choice =>
      simp only [step] at hs
      split at hs
      · rename_i t ht
        split at hs
        · rename_i s1 t1 hg
          simp only [Outcome.ok.injEq] at hs
          subst hs
          have htasks := ((goTask_inv (Inv1.focus hi ht) choice).2 s1 t1 hg).2
          obtain ⟨g1, g2, g3, g4, g5, g6⟩ := goTask_fn hg
          have hm := (Inv1.focus hi ht).mine
          intro x hx
          rw [htasks] at hx
          rcases List.mem_or_eq_of_mem_set hx with h | h
          · have := ih x h
            exact ⟨fun e => (this.1 e).imp id (g2 _), fun e => (this.2 e).imp id (g3 _)⟩
          · subst h
            have hold := ih t (List.mem_of_getElem? ht)
            refine ⟨fun e => ?_, fun e => ?_⟩
            · rcases hold.1 (g1 ▸ e) with h | h
              · exact g5 _ _ h
              · rcases g4 with g4 | ⟨n, m, c, hc, g4⟩ | ⟨n, c, hc, g4⟩
                · rw [g4]; exact .inr (g2 _ h)
                · have hchk := hm.chk
                  rw [hc] at hchk
                  simp only [check, Bool.and_eq_true, beq_iff_eq] at hchk
                  rw [hchk.1.2] at g4
                  exact .inr g4
                · obtain ⟨pre, hp⟩ := hm.code
                  rw [hc, ← g1, e] at hp
                  have : take n ∈ Fn.flush.code := by rw [hp]; simp
                  simp [Fn.code, sendMessages] at this
            · rcases hold.2 (g1 ▸ e) with h | h
              · exact g6 _ h
              · rcases g4 with g4 | ⟨n, m, c, hc, g4⟩ | ⟨n, c, hc, g4⟩
                · rw [g4]; exact .inr (g3 _ h)
                · obtain ⟨pre, hp⟩ := hm.code
                  rw [hc, ← g1, e] at hp
                  have : swap n m ∈ Fn.read.code := by rw [hp]; simp
                  simp [Fn.code] at this
                · have hchk := hm.chk
                  rw [hc] at hchk
                  simp only [check, Bool.and_eq_true, beq_iff_eq] at hchk
                  rw [hchk.1.2] at g4
                  exact .inr g4
        all_goals cases hs
      · cases hs
    | leave j =>
      simp only [step] at hs
      split at hs
      · rename_i t ht
        split at hs
        · cases hs
        · rename_i hf
          simp only [Outcome.ok.injEq] at hs
          subst hs
          intro x hx
          rcases List.mem_or_eq_of_mem_set hx with h | h
          · exact ih x h
          · subst h
            exact got_leave (Inv1.focus hi ht).mine (ih t (List.mem_of_getElem? ht)) hf
      · cases hs
    | forget a =>
      simp only [step, Outcome.ok.injEq] at hs
      subst hs
      exact ih


/-! ## Everything is given back -/

/-- All that is live at a return is released by it or belongs to the caller; nothing is live at the end. -/
def tidyChk : List Name → List (List Name) → List Instr → Bool
  | live, st, [] => live.isEmpty && st.isEmpty
  | live, st, acq n _ d :: c => (d || st.isEmpty) && tidyChk (n :: live) st c
  | live, st, swap n m :: c => st.isEmpty && tidyChk (m :: drop live n) st c
  | live, st, give n :: c => st.isEmpty && tidyChk (drop live n) st c
  | live, st, take n :: c => st.isEmpty && tidyChk (n :: live) st c
  | live, st, Instr.release n :: c => st.isEmpty && tidyChk (drop live n) st c
  | live, st, enter :: c => tidyChk live (live :: st) c
  | _, [], exit :: _ => false
  | _, sv :: st, exit :: c => tidyChk sv st c
  | live, st, _ :: c => tidyChk live st c

theorem tidy_code (fn : Fn) (h : fn.tidy = true) : tidyChk [] [] fn.code = true := by
  cases fn <;> first | exact absurd h (by decide) | decide | (rename_i k; cases k <;> decide)

theorem tidy_toExit : ∀ (c : List Instr) (live : List Name) (top : List (List Name)) (sv : List Name) (st : List (List Name)),
    tidyChk live (top ++ sv :: st) c = true → ∀ live', tidyChk live' (sv :: st) (toExit top.length c) = true
  | [], live, top, sv, st, h, live' => by simp [tidyChk] at h
  | i :: c, live, top, sv, st, h, live' => by
    cases i
    case exit =>
      cases top with
      | nil => simpa [tidyChk, toExit] using h
      | cons x top => exact tidy_toExit c _ top sv st (by simpa [tidyChk] using h) live'
    case enter =>
      have := tidy_toExit c live (live :: top) sv st (by simpa [tidyChk] using h) live'
      simpa [toExit] using this
    all_goals
      simp only [tidyChk, Bool.and_eq_true] at h
      simp only [toExit]
      first
      | exact tidy_toExit c _ top sv st h live'
      | exact tidy_toExit c _ top sv st h.2 live'

def TChain : List Name → List Frame → Prop
  | _, [] => True
  | live, f :: fs => (∀ x ∈ live, x ∈ f.saved ∨ x ∈ f.deferred) ∧ TChain f.saved fs

structure Tidy (t : Task) : Prop where
  chk : tidyChk (names t.env) (t.frames.map (·.saved)) t.code = true
  chain : TChain (names t.env) t.frames

/-- Who has an object after a step of a goroutine. -/
def Kept (s : State) (t : Task) (s' : State) (t' : Task) : Prop :=
  ∀ a, a < s'.count → (s'.heap a).busy = true →
    (a < s.count ∧ (s.heap a).busy = true ∧ a ≠ s.cur ∧ a ∉ s.queue ∧ a ∉ addrs t.env) ∨ a = s'.cur ∨ a ∈ s'.queue ∨ a ∈ addrs t'.env

theorem Kept.of {s s' : State} {t t' : Task} (hc : s'.count = s.count) (hb : ∀ a, (s'.heap a).busy = (s.heap a).busy)
    (h : ∀ a, a = s.cur ∨ a ∈ s.queue ∨ a ∈ addrs t.env → a = s'.cur ∨ a ∈ s'.queue ∨ a ∈ addrs t'.env) : Kept s t s' t' := by
  intro a ha hba
  by_cases h' : a = s.cur ∨ a ∈ s.queue ∨ a ∈ addrs t.env
  · exact .inr (h a h')
  · refine .inl ⟨hc ▸ ha, (hb a) ▸ hba, fun e => h' (.inl e), fun e => h' (.inr (.inl e)), fun e => h' (.inr (.inr e))⟩

theorem acquire_kept {s s' : State} {k : Kind} {choice : Option Nat} {a : Nat} (h : acquire s k choice = .ok (s', a)) :
    s'.cur = s.cur ∧ s'.queue = s.queue ∧ ∀ b, b < s'.count → (s'.heap b).busy = true → b = a ∨ b < s.count ∧ (s.heap b).busy = true := by
  cases choice with
  | none =>
    simp only [acquire, Pool.seize] at h
    split at h
    · cases h
    · cases h
      refine ⟨rfl, rfl, fun b hb hbb => ?_⟩
      by_cases e : b = s.count
      · exact .inl e
      · simp only [upd, if_neg e] at hbb hb
        exact .inr ⟨by omega, hbb⟩
  | some c =>
    simp only [acquire, Pool.seize] at h
    split at h
    · split at h
      · cases h
      · cases h
        refine ⟨rfl, rfl, fun b hb hbb => ?_⟩
        by_cases e : b = a
        · exact .inl e
        · simp only [upd, if_neg e] at hbb hb
          exact .inr ⟨hb, hbb⟩
    · cases h

theorem release_kept {s s' : State} {a : Nat} (h : Pool.release s a = .ok s') (hr : (s.heap a).kind = .buf → (s.heap a).refs = 1) :
    s'.cur = s.cur ∧ s'.queue = s.queue ∧ s'.count = s.count ∧ (s'.heap a).busy = false ∧ ∀ b, b ≠ a → (s'.heap b).busy = (s.heap b).busy := by
  simp only [Pool.release] at h
  split at h
  · rename_i hk
    have := hr hk
    split at h
    · omega
    · split at h
      · cases h
      · cases h
        exact ⟨rfl, rfl, rfl, by simp [upd], fun b hb => by simp [upd, hb]⟩
  · split at h
    · cases h
    · cases h
      exact ⟨rfl, rfl, rfl, by simp [upd], fun b hb => by simp [upd, hb]⟩

theorem mem_addrs_without {env : List (Name × Nat)} {n : Name} {a b : Nat} (hn : (names env).Nodup) (hl : env.lookup n = some a)
    (hb : b ∈ addrs env) : b = a ∨ b ∈ addrs (without env n) := by
  obtain ⟨⟨m, b'⟩, hm, rfl⟩ := List.mem_map.1 hb
  by_cases e : m = n
  · subst e
    have := mem_lookup hn hm
    rw [hl] at this
    exact .inl (Option.some.inj this).symm
  · exact .inr (List.mem_map.2 ⟨_, List.mem_filter.2 ⟨hm, by simpa using e⟩, rfl⟩)

theorem setVal_busy (s : State) (a b : Nat) (v : Bytes) : ((setVal s a v).heap b).busy = (s.heap b).busy := by
  simp only [setVal, upd]
  split
  · rename_i e; rw [e]
  · rfl

theorem goTask_tidy {s s' : State} {t t' : Task} {os : List Task} (i : Inv1 comp s t os) (ht : Tidy t) {choice : Option Nat}
    (h : goTask comp s t choice = .ok (s', t')) : Tidy t' ∧ Kept s t s' t' := by
  obtain ⟨htc, hch⟩ := ht
  unfold goTask at h
  cases hc : t.code with
  | nil => rw [hc] at h; cases h
  | cons x c =>
    rw [hc] at h htc
    have hheld : ∀ n a, t.env.lookup n = some a → (s.heap a).kind = .buf → (s.heap a).refs = 1 := fun n a hl =>
      (i.held a (by have := lookup_count hl; omega)).2
    cases x <;> dsimp only at h
    case acq n k d =>
      simp only [tidyChk, Bool.and_eq_true, Bool.or_eq_true] at htc
      cases ha : acquire s k choice with
      | ok r =>
        obtain ⟨k1, k2, k3⟩ := acquire_kept (s' := r.1) (a := r.2) (by rw [ha])
        rw [ha] at h
        have hk : ∀ t' : Task, t'.env = (n, r.2) :: t.env → Kept s t r.1 t' := by
          intro t' he a hac hab
          rcases k3 a hac hab with e | ⟨e1, e2⟩
          · exact .inr (.inr (.inr (by rw [he, e]; simp [addrs])))
          · by_cases h' : a = s.cur ∨ a ∈ s.queue ∨ a ∈ addrs t.env
            · refine .inr ?_
              rw [k1, k2, he]
              exact h'.imp id (Or.imp id (fun q => by simp only [addrs, List.map_cons]; exact List.mem_cons_of_mem _ q))
            · exact .inl ⟨e1, e2, fun e => h' (.inl e), fun e => h' (.inr (.inl e)), fun e => h' (.inr (.inr e))⟩
        dsimp only at h
        split at h
        · split at h
          · rename_i f fs hf
            cases h
            rw [hf] at htc hch
            exact ⟨⟨by simpa [names] using htc.2, ⟨fun x hx => by
              rcases List.mem_cons.1 (show x ∈ n :: names t.env from hx) with e | e
              · exact .inr (by rw [e]; simp)
              · exact (hch.1 x e).imp id (List.mem_cons_of_mem _), hch.2⟩⟩, hk _ rfl⟩
          · cases h
        · rename_i hd
          cases h
          have hf : t.frames = [] := by
            rcases htc.1 with e | e
            · exact absurd e hd
            · simpa using e
          exact ⟨⟨htc.2, by simp only [hf]; trivial⟩, hk _ rfl⟩
      | err e => rw [ha] at h; cases h
      | panic => rw [ha] at h; cases h
      | block => rw [ha] at h; cases h
    case swap n m =>
      simp only [tidyChk, Bool.and_eq_true] at htc
      have hf : t.frames = [] := by simpa using htc.1
      split at h
      · rename_i a hl
        cases h
        refine ⟨⟨?_, by simp only [hf]; trivial⟩, Kept.of rfl (fun _ => rfl) ?_⟩
        · have := htc.2
          rw [← names_without] at this
          exact this
        · rintro b (rfl | hb | hb)
          · exact .inr (.inr (by simp [addrs]))
          · exact .inr (.inl hb)
          · rcases mem_addrs_without i.mine.nodup hl hb with e | e
            · exact .inl e
            · exact .inr (.inr (by simp only [addrs, List.map_cons]; exact List.mem_cons_of_mem _ e))
      · cases h
    case give n =>
      simp only [tidyChk, Bool.and_eq_true] at htc
      have hf : t.frames = [] := by simpa using htc.1
      split at h
      · rename_i a hl
        cases h
        refine ⟨⟨?_, by simp only [hf]; trivial⟩, Kept.of rfl (fun _ => rfl) ?_⟩
        · have := htc.2
          rw [← names_without] at this
          exact this
        · rintro b (rfl | hb | hb)
          · exact .inl rfl
          · exact .inr (.inl (List.mem_append_left _ hb))
          · rcases mem_addrs_without i.mine.nodup hl hb with e | e
            · exact .inr (.inl (by rw [e]; simp))
            · exact .inr (.inr e)
      · cases h
    case take n =>
      simp only [tidyChk, Bool.and_eq_true] at htc
      have hf : t.frames = [] := by simpa using htc.1
      split at h
      · rename_i a q hq
        cases h
        refine ⟨⟨htc.2, by simp only [hf]; trivial⟩, Kept.of rfl (fun _ => rfl) ?_⟩
        rintro b (rfl | hb | hb)
        · exact .inl rfl
        · rw [hq] at hb
          rcases List.mem_cons.1 hb with e | e
          · exact .inr (.inr (by rw [e]; simp [addrs]))
          · exact .inr (.inl e)
        · exact .inr (.inr (by simp only [addrs, List.map_cons]; exact List.mem_cons_of_mem _ hb))
      · cases h
    case release n =>
      simp only [tidyChk, Bool.and_eq_true] at htc
      have hf : t.frames = [] := by simpa using htc.1
      split at h
      · rename_i a hl
        cases hr : Pool.release s a with
        | ok r =>
          obtain ⟨k1, k2, k3, k4, k5⟩ := release_kept hr (hheld _ _ hl)
          rw [hr] at h
          cases h
          refine ⟨⟨?_, by simp only [hf]; trivial⟩, ?_⟩
          · have := htc.2
            rw [← names_without] at this
            exact this
          · intro b hb hbb
            by_cases e : b = a
            · rw [e, k4] at hbb; cases hbb
            · by_cases h' : b = s.cur ∨ b ∈ s.queue ∨ b ∈ addrs t.env
              · refine .inr ?_
                rw [k1, k2]
                exact h'.imp id (Or.imp id (fun q => (mem_addrs_without i.mine.nodup hl q).resolve_left e))
              · exact .inl ⟨k3 ▸ hb, (k5 b e) ▸ hbb, fun e => h' (.inl e), fun e => h' (.inr (.inl e)), fun e => h' (.inr (.inr e))⟩
        | err e => rw [hr] at h; cases h
        | panic => rw [hr] at h; cases h
        | block => rw [hr] at h; cases h
      · cases h
    case enter =>
      cases h
      refine ⟨⟨htc, ⟨fun x hx => .inl hx, hch⟩⟩, Kept.of rfl (fun _ => rfl) (fun _ q => q)⟩
    case exit =>
      split at h
      · rename_i saved known n df fs hf
        rw [hf] at htc hch
        split at h
        · rename_i a hl
          cases hr : Pool.release s a with
          | ok r =>
            obtain ⟨k1, k2, k3, k4, k5⟩ := release_kept hr (hheld _ _ hl)
            rw [hr] at h
            cases h
            refine ⟨⟨?_, ⟨?_, hch.2⟩⟩, ?_⟩
            · simp only [hc]; simpa [tidyChk] using htc
            · intro x hx
              simp only [names_without, mem_drop] at hx
              rcases hch.1 x hx.1 with e | e
              · exact .inl e
              · rcases List.mem_cons.1 e with e | e
                · exact absurd e hx.2
                · exact .inr e
            · intro b hb hbb
              by_cases e : b = a
              · rw [e, k4] at hbb; cases hbb
              · by_cases h' : b = s.cur ∨ b ∈ s.queue ∨ b ∈ addrs t.env
                · refine .inr ?_
                  rw [k1, k2]
                  exact h'.imp id (Or.imp id (fun q => (mem_addrs_without i.mine.nodup hl q).resolve_left e))
                · exact .inl ⟨k3 ▸ hb, (k5 b e) ▸ hbb, fun e => h' (.inl e), fun e => h' (.inr (.inl e)), fun e => h' (.inr (.inr e))⟩
          | err e => rw [hr] at h; cases h
          | panic => rw [hr] at h; cases h
          | block => rw [hr] at h; cases h
        · cases h
      · rename_i saved known fs hf
        rw [hf] at htc hch
        cases h
        have hall : ∀ x ∈ names t.env, x ∈ saved := fun x hx => (hch.1 x hx).elim id (fun q => by cases q)
        have hfil : t.env.filter (fun p => decide (p.1 ∈ saved)) = t.env := List.filter_eq_self.2 fun p hp =>
          decide_eq_true (hall _ (List.mem_map.2 ⟨p, hp, rfl⟩))
        have hsv : names t.env = saved := by
          have := i.mine.chain
          rw [hf] at this
          have h1 := this.1
          rw [List.filter_eq_self.2 (fun p hp => decide_eq_true (hall p hp))] at h1
          exact h1
        refine ⟨⟨?_, ?_⟩, Kept.of rfl (fun _ => rfl) ?_⟩
        · show tidyChk (names (t.env.filter fun p => decide (p.1 ∈ saved))) _ _ = true
          rw [hfil, hsv]
          simpa [tidyChk] using htc
        · show TChain (names (t.env.filter fun p => decide (p.1 ∈ saved))) _
          rw [hfil, hsv]
          exact hch.2
        · intro b hb
          show b = s.cur ∨ b ∈ s.queue ∨ b ∈ addrs (t.env.filter fun p => decide (p.1 ∈ saved))
          rw [hfil]
          exact hb
      · cases h
    all_goals
      simp only [tidyChk] at htc
      split at h
      · cases h
        exact ⟨⟨htc, hch⟩, Kept.of rfl (fun _ => by first | rfl | exact setVal_busy _ _ _ _) (fun _ q => q)⟩
      · cases h

/-- All goroutines are tidy, and every busy object has an owner. -/
structure Full (s : State) : Prop where
  tidy : ∀ t ∈ s.tasks, Tidy t
  owner : ∀ a, a < s.count → (s.heap a).busy = true → a = s.cur ∨ a ∈ s.queue ∨ ∃ (j : Nat) (t : Task), s.tasks[j]? = some t ∧ a ∈ addrs t.env

theorem full {s : State} (h : Reachable comp s) (ht : ∀ t ∈ s.tasks, t.fn.tidy = true) : Full s := by
  induction h with
  | init =>
    refine ⟨(fun t ht => by cases ht), fun a ha hb => .inl ?_⟩
    have : a < 1 := ha
    show a = 0
    omega
  | @step s s' a hr hs ih =>
    have hi := inv hr
    cases a with
    | start fn inp =>
      simp only [step, Outcome.ok.injEq] at hs
      subst hs
      have ih := ih fun t h => ht t (List.mem_append_left _ h)
      refine ⟨fun t h => ?_, fun a ha hb => ?_⟩
      · rcases List.mem_append.1 h with h | h
        · exact ih.tidy t h
        · rw [List.mem_singleton.1 h]
          refine ⟨tidy_code fn ?_, trivial⟩
          exact ht (Task.init fn inp) (List.mem_append_right _ (by simp))
      · rcases ih.owner a ha hb with e | e | ⟨j, t, hj, e⟩
        · exact .inl e
        · exact .inr (.inl e)
        · refine .inr (.inr ⟨j, t, ?_, e⟩)
          obtain ⟨hlt, _⟩ := List.getElem?_eq_some_iff.1 hj
          show (s.tasks ++ [Task.init fn inp])[j]? = some t
          rw [List.getElem?_append_left hlt, hj]
    | go j choice =>
      simp only [step] at hs
      split at hs
      · rename_i t hj
        split at hs
        · rename_i s1 t1 hg
          simp only [Outcome.ok.injEq] at hs
          subst hs
          have htasks := ((goTask_inv (Inv1.focus hi hj) choice).2 s1 t1 hg).2
          have hfn := (goTask_fn hg).1
          obtain ⟨hlt, hget⟩ := List.getElem?_eq_some_iff.1 hj
          have ih := ih fun x hx => by
            obtain ⟨k, hk, hk'⟩ := List.getElem_of_mem hx
            by_cases e : k = j
            · subst e
              have h1 := ht t1 (by rw [htasks]; exact List.mem_set hlt t1)
              rw [hfn] at h1
              rw [hget] at hk'
              rw [← hk']; exact h1
            · refine ht x ?_
              rw [htasks]
              refine List.mem_of_getElem? (i := k) ?_
              rw [List.getElem?_set_ne (Ne.symm e), List.getElem?_eq_getElem hk, hk']
          have hmem := List.mem_of_getElem? hj
          obtain ⟨g1, g2⟩ := goTask_tidy (Inv1.focus hi hj) (ih.tidy t hmem) hg
          refine ⟨fun x hx => ?_, fun a ha hb => ?_⟩
          · rw [htasks] at hx
            rcases List.mem_or_eq_of_mem_set hx with h | h
            · exact ih.tidy x h
            · rw [h]; exact g1
          · have hown : ∀ a, a ∈ addrs t1.env → ∃ (k : Nat) (x : Task), (s1.tasks.set j t1)[k]? = some x ∧ a ∈ addrs x.env := fun a ha =>
              ⟨j, t1, by rw [htasks, List.getElem?_set_self hlt], ha⟩
            rcases g2 a ha hb with ⟨b1, b2, b3, b4, b5⟩ | b | b | b
            · rcases ih.owner a b1 b2 with e | e | ⟨k, x, hk, e⟩
              · exact absurd e b3
              · exact absurd e b4
              · by_cases ek : k = j
                · subst ek
                  rw [hj] at hk
                  cases hk
                  exact absurd e b5
                · refine .inr (.inr ⟨k, x, ?_, e⟩)
                  show (s1.tasks.set j t1)[k]? = some x
                  rw [htasks, List.getElem?_set_ne (Ne.symm ek)]
                  exact hk
            · exact .inl b
            · exact .inr (.inl b)
            · exact .inr (.inr (hown a b))
        all_goals cases hs
      · cases hs
    | leave j =>
      simp only [step] at hs
      split at hs
      · rename_i t hj
        split at hs
        · cases hs
        · rename_i hf
          simp only [Outcome.ok.injEq] at hs
          subst hs
          obtain ⟨hlt, hget⟩ := List.getElem?_eq_some_iff.1 hj
          have ih := ih fun x hx => by
            obtain ⟨k, hk, hk'⟩ := List.getElem_of_mem hx
            by_cases e : k = j
            · subst e
              have h1 := ht { t with code := toExit 0 t.code } (List.mem_set hlt _)
              rw [hget] at hk'
              rw [← hk']; exact h1
            · refine ht x ?_
              refine List.mem_of_getElem? (i := k) ?_
              show (s.tasks.set j _)[k]? = some x
              rw [List.getElem?_set_ne (Ne.symm e), List.getElem?_eq_getElem hk, hk']
          have hmem := List.mem_of_getElem? hj
          refine ⟨fun x hx => ?_, fun a ha hb => ?_⟩
          · rcases List.mem_or_eq_of_mem_set hx with h | h
            · exact ih.tidy x h
            · rw [h]
              obtain ⟨q1, q2⟩ := ih.tidy t hmem
              refine ⟨?_, q2⟩
              cases hfs : t.frames with
              | nil => exact absurd hfs hf
              | cons f fs =>
                rw [hfs] at q1
                exact tidy_toExit t.code _ [] f.saved (fs.map (·.saved)) q1 _
          · rcases ih.owner a ha hb with e | e | ⟨k, x, hk, e⟩
            · exact .inl e
            · exact .inr (.inl e)
            · refine .inr (.inr ?_)
              by_cases ek : k = j
              · subst ek
                rw [hj] at hk
                cases hk
                exact ⟨k, { t with code := toExit 0 t.code }, List.getElem?_set_self hlt, e⟩
              · exact ⟨k, x, by show (s.tasks.set j _)[k]? = some x; rw [List.getElem?_set_ne (Ne.symm ek)]; exact hk, e⟩
      · cases hs
    | forget a =>
      simp only [step, Outcome.ok.injEq] at hs
      subst hs
      exact ⟨(ih ht).tidy, (ih ht).owner⟩


/-! ## What is appended and what is sent into the channel -/

theorem code_append (fn : Fn) (n : Name) (h : append n ∈ fn.code) : fn = .async ∧ n = .msgHdr := by
  cases fn
  case single k => cases k <;> simp [Fn.code, writeMessageSingle, sendMessages] at h
  all_goals simp [Fn.code, writeMessageSingle, sendMessages] at h
  exact ⟨rfl, h⟩

theorem code_give (fn : Fn) (n : Name) (h : give n ∈ fn.code) : fn = .deliver ∧ n = .item := by
  cases fn
  case single k => cases k <;> simp [Fn.code, writeMessageSingle, sendMessages] at h
  all_goals simp [Fn.code, writeMessageSingle, sendMessages] at h
  exact ⟨rfl, h⟩

theorem goTask_hist {s s' : State} {t t' : Task} {choice : Option Nat} (h : goTask comp s t choice = .ok (s', t')) :
    (s'.appended = s.appended ∨ ∃ n c a, t.code = append n :: c ∧ t.env.lookup n = some a ∧
      s'.appended = s.appended ++ [comp .msgBuf (t.inp .msgBuf) [(s.heap a).val]]) ∧
    (s'.given = s.given ∨ ∃ n c a, t.code = give n :: c ∧ t.env.lookup n = some a ∧ s'.given = s.given ++ [(s.heap a).val]) := by
  have hacq : ∀ {k choice s1 a}, acquire s k choice = .ok (s1, a) → s1.appended = s.appended ∧ s1.given = s.given := by
    intro k choice s1 a ha
    cases choice <;> simp only [acquire, Pool.seize] at ha
    · split at ha
      · cases ha
      · cases ha; exact ⟨rfl, rfl⟩
    · split at ha
      · split at ha
        · cases ha
        · cases ha; exact ⟨rfl, rfl⟩
      · cases ha
  have hrel : ∀ {a s1}, Pool.release s a = .ok s1 → s1.appended = s.appended ∧ s1.given = s.given := by
    intro a s1 hr
    simp only [Pool.release] at hr
    split at hr
    · split at hr
      · cases hr; exact ⟨rfl, rfl⟩
      · split at hr
        · cases hr
        · cases hr; exact ⟨rfl, rfl⟩
    · split at hr
      · cases hr
      · cases hr; exact ⟨rfl, rfl⟩
  unfold goTask at h
  cases hc : t.code with
  | nil => rw [hc] at h; cases h
  | cons x c =>
    rw [hc] at h
    cases x <;> dsimp only at h
    case acq n k d =>
      cases ha : acquire s k choice with
      | ok r =>
        obtain ⟨k1, k2⟩ := hacq (s1 := r.1) (a := r.2) ha
        rw [ha] at h
        dsimp only at h
        split at h
        · split at h
          · cases h; exact ⟨.inl k1, .inl k2⟩
          · cases h
        · cases h; exact ⟨.inl k1, .inl k2⟩
      | err e => rw [ha] at h; cases h
      | panic => rw [ha] at h; cases h
      | block => rw [ha] at h; cases h
    case append n =>
      split at h
      · rename_i a hl
        cases h
        exact ⟨.inr ⟨n, c, a, rfl, hl, rfl⟩, .inl rfl⟩
      · cases h
    case give n =>
      split at h
      · rename_i a hl
        cases h
        exact ⟨.inl rfl, .inr ⟨n, c, a, rfl, hl, rfl⟩⟩
      · cases h
    case release n =>
      split at h
      · rename_i a hl
        cases hr : Pool.release s a with
        | ok r =>
          rw [hr] at h
          cases h
          exact ⟨.inl (hrel hr).1, .inl (hrel hr).2⟩
        | err e => rw [hr] at h; cases h
        | panic => rw [hr] at h; cases h
        | block => rw [hr] at h; cases h
      · cases h
    case exit =>
      split at h
      · split at h
        · rename_i a hl
          cases hr : Pool.release s a with
          | ok r =>
            rw [hr] at h
            cases h
            exact ⟨.inl (hrel hr).1, .inl (hrel hr).2⟩
          | err e => rw [hr] at h; cases h
          | panic => rw [hr] at h; cases h
          | block => rw [hr] at h; cases h
        · cases h
      · cases h; exact ⟨.inl rfl, .inl rfl⟩
      · cases h
    case enter => cases h; exact ⟨.inl rfl, .inl rfl⟩
    all_goals
      split at h
      · cases h; exact ⟨.inl rfl, .inl rfl⟩
      · cases h

theorem step_appended {s s' : State} (hi : Inv comp s) {a : Act} (hs : step comp s a = .ok s') :
    s'.appended = s.appended ∨
      ∃ i c t, a = .go i c ∧ s.tasks[i]? = some t ∧ t.fn = .async ∧ s'.appended = s.appended ++ [message comp t.inp []] := by
  cases a with
  | start fn inp => simp only [step, Outcome.ok.injEq] at hs; subst hs; exact .inl rfl
  | forget a => simp only [step, Outcome.ok.injEq] at hs; subst hs; exact .inl rfl
  | leave j =>
    simp only [step] at hs
    split at hs
    · split at hs
      · cases hs
      · simp only [Outcome.ok.injEq] at hs; subst hs; exact .inl rfl
    · cases hs
  | go j choice =>
    simp only [step] at hs
    split at hs
    · rename_i t hj
      split at hs
      · rename_i s1 t1 hg
        simp only [Outcome.ok.injEq] at hs
        subst hs
        have hm := (Inv1.focus hi hj).mine
        rcases (goTask_hist hg).1 with e | ⟨n, c, a, hc, hl, e⟩
        · exact .inl e
        · obtain ⟨pre, hp⟩ := hm.code
          obtain ⟨hfn, hn⟩ := code_append t.fn n (by rw [hp, hc]; simp)
          subst hn
          have hchk := hm.chk
          rw [hc] at hchk
          simp only [check, Bool.and_eq_true, List.contains_iff_mem] at hchk
          have hk : Name.msgHdr ∈ t.known := by simpa using hchk.1
          have hv := hm.vals _ hk a (lookup_mem hl)
          refine .inr ⟨j, choice, t, rfl, hj, hfn, ?_⟩
          show s1.appended = _
          rw [e, hv, hfn]
          rfl
      all_goals cases hs
    · cases hs

theorem step_given {s s' : State} (hi : Inv comp s) {a : Act} (hs : step comp s a = .ok s') :
    s'.given = s.given ∨
      ∃ i c t, a = .go i c ∧ s.tasks[i]? = some t ∧ t.fn = .deliver ∧ s'.given = s.given ++ [comp .item (t.inp .item) []] := by
  cases a with
  | start fn inp => simp only [step, Outcome.ok.injEq] at hs; subst hs; exact .inl rfl
  | forget a => simp only [step, Outcome.ok.injEq] at hs; subst hs; exact .inl rfl
  | leave j =>
    simp only [step] at hs
    split at hs
    · split at hs
      · cases hs
      · simp only [Outcome.ok.injEq] at hs; subst hs; exact .inl rfl
    · cases hs
  | go j choice =>
    simp only [step] at hs
    split at hs
    · rename_i t hj
      split at hs
      · rename_i s1 t1 hg
        simp only [Outcome.ok.injEq] at hs
        subst hs
        have hm := (Inv1.focus hi hj).mine
        rcases (goTask_hist hg).2 with e | ⟨n, c, a, hc, hl, e⟩
        · exact .inl e
        · obtain ⟨pre, hp⟩ := hm.code
          obtain ⟨hfn, hn⟩ := code_give t.fn n (by rw [hp, hc]; simp)
          subst hn
          have hchk := hm.chk
          rw [hc] at hchk
          simp only [check, Bool.and_eq_true, List.contains_iff_mem] at hchk
          have hk : Name.item ∈ t.known := by have := hchk.1.2; simp only [beq_iff_eq] at this; rw [this]; simp
          have hv := hm.vals _ hk a (lookup_mem hl)
          refine .inr ⟨j, choice, t, rfl, hj, hfn, ?_⟩
          show s1.given = _
          rw [e, hv, hfn]
          rfl
      all_goals cases hs
    · cases hs

end Verif.Pool
