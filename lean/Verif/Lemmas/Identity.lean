import Verif.Lemmas.Pem
/-!
# Invariants of the key directory
-/
namespace Verif.Identity

variable {P : Pem}

theorem runActs_preserves {Q : State → Prop} (hstep : ∀ s s' a, Q s → step P s a = some s' → Q s')
    (as : List Act) {s s' : State} (h : Q s) (hr : runActs P s as = some s') : Q s' := by
  induction as generalizing s with
  | nil => simp only [runActs, Option.some.injEq] at hr; subst hr; exact h
  | cons a as ih =>
    simp only [runActs] at hr
    split at hr
    · rename_i s1 h1
      exact ih (hstep s s1 a h h1) hr
    · simp at hr

theorem runActs_append (as bs : List Act) (s : State) :
    runActs P s (as ++ bs) = (runActs P s as).bind (fun s' => runActs P s' bs) := by
  induction as generalizing s with
  | nil => rfl
  | cons a as ih =>
    simp only [List.cons_append, runActs]
    split
    · exact ih _
    · rfl

theorem writeAt_take (T : Bytes) (off n : Nat) (h : off + n ≤ T.length) :
    writeAt (T.take off) off ((T.drop off).take n) = T.take (off + n) := by
  have h1 : (T.take off).drop (off + ((T.drop off).take n).length) = [] := by
    apply List.drop_eq_nil_of_le
    rw [List.length_take]
    omega
  rw [writeAt, h1, List.append_nil, List.take_take, Nat.min_self, List.take_add]

/-- The call is past `os.Stat` and found no private key. -/
def PC.creating : PC → Bool
  | .generate | .openPriv _ | .writePriv _ _ => true
  | _ => false

/-- The key that the call has loaded or saved. -/
def PC.key : PC → Option Bytes
  | .openPub k | .writePub k _ | .statPub k => some k
  | _ => none

/-- The directory has a private key, and nobody is creating another one. -/
structure Settled (P : Pem) (b : Bytes) (s : State) : Prop where
  file : ∃ text, s.dir.priv = some text ∧ P.decode text = some b
  len : b.length = 64
  quiet : ∀ pc ∈ s.calls, pc.creating = false ∧ ∀ k, pc.key = some k → k = b

theorem callStep_settled {b : Bytes} {d d' : Dir} {pc pc' : PC} {e : Ev} (hf : ∃ text, d.priv = some text ∧ P.decode text = some b)
    (hl : b.length = 64) (hq : pc.creating = false ∧ ∀ k, pc.key = some k → k = b) (hs : callStep P d pc e = some (d', pc')) :
    d'.priv = d.priv ∧ (pc'.creating = false ∧ ∀ k, pc'.key = some k → k = b) ∧ ∀ k, pc' = .done k → k = .of b := by
  obtain ⟨text, h1, h2⟩ := hf
  obtain ⟨h3, h4⟩ := hq
  cases pc <;> cases e <;> simp only [callStep, reduceCtorEq] at hs <;> (try (simp [PC.creating] at h3; done)) <;>
    (try simp only [PC.key, Option.some.injEq, forall_eq'] at h4) <;> (try subst h4) <;> (repeat' split at hs) <;>
    (try (simp at hs; done)) <;> simp only [Option.some.injEq, Prod.mk.injEq] at hs <;> obtain ⟨hd, hp⟩ := hs <;> subst hd <;>
    subst hp <;> (try (simp_all [PC.creating, PC.key]; done))
  · rename_i t ht _ k hk
    rw [h1, Option.some.injEq] at ht
    subst ht
    simp only [parseKey, h2, hl] at hk
    simp at hk
    subst hk
    simp [PC.creating, PC.key]

theorem settled_step {b : Bytes} {s s' : State} {a : Act} (h : Settled P b s) (hs : step P s a = some s') :
    Settled P b s' ∧ s'.dir.priv = s.dir.priv ∧
    ∀ (i : Nat) k, s'.calls[i]? = some (PC.done k) → s.calls[i]? = some (PC.done k) ∨ k = Keys.of b := by
  obtain ⟨hf, hl, hq⟩ := h
  cases a with
  | call =>
    simp only [step, Option.some.injEq] at hs
    subst hs
    refine ⟨⟨hf, hl, ?_⟩, rfl, ?_⟩
    · intro pc hpc
      rcases List.mem_append.mp hpc with h | h
      · exact hq pc h
      · rw [List.mem_singleton.mp h]; simp [PC.creating, PC.key]
    · intro i k hi
      simp only [List.getElem?_append] at hi
      split at hi
      · exact Or.inl hi
      · simp only [List.getElem?_singleton] at hi
        split at hi <;> simp at hi
  | run i e =>
    simp only [step] at hs
    split at hs <;> try (simp at hs; done)
    rename_i pc hpc
    split at hs <;> try (simp at hs; done)
    rename_i d pc' hc
    simp only [Option.some.injEq] at hs
    subst hs
    have hmem : pc ∈ s.calls := List.mem_of_getElem? hpc
    obtain ⟨h1, h2, h3⟩ := callStep_settled hf hl (hq pc hmem) hc
    refine ⟨⟨by rw [h1]; exact hf, hl, ?_⟩, h1, ?_⟩
    · intro p hp
      rcases List.mem_or_eq_of_mem_set hp with hp | rfl
      · exact hq p hp
      · exact h2
    · intro j k hj
      simp only [List.getElem?_set] at hj
      split at hj
      · split at hj
        · exact Or.inr (h3 k (by simpa using hj))
        · simp at hj
      · exact Or.inl hj
  | crash i =>
    simp only [step] at hs
    split at hs <;> try (simp at hs; done)
    split at hs <;> try (simp at hs; done)
    simp only [Option.some.injEq] at hs
    subst hs
    refine ⟨⟨hf, hl, ?_⟩, rfl, ?_⟩
    · intro p hp
      rcases List.mem_or_eq_of_mem_set hp with hp | rfl
      · exact hq p hp
      · simp [PC.creating, PC.key]
    · intro j k hj
      simp only [List.getElem?_set] at hj
      split at hj
      · split at hj <;> simp at hj
      · exact Or.inl hj

/-! ### Calls one after the other -/

/-- May this happen when calls are made one after the other? -/
def inTurn (s : State) : Act → Prop
  | .call => ∀ pc ∈ s.calls, pc.ended = true
  | _ => True

/-- May this happen when nothing fails or crashes? -/
def smooth : Act → Prop
  | .call => True
  | .run _ e => e ≠ .fail
  | .crash _ => False

/-- Histories in which calls are made one after the other; if `clean`, nothing fails and nobody crashes. -/
inductive Sequential (P : Pem) (clean : Bool) : State → Prop
  | init : Sequential P clean .init
  | step {s s'} (a : Act) : Sequential P clean s → inTurn s a → (clean = true → smooth a) → step P s a = some s' →
      Sequential P clean s'

/-- No call has succeeded. -/
def NoneDone (olds : List PC) : Prop := ∀ k, PC.done k ∉ olds

/-- The file has the key `b`, maybe without its last characters, and all calls that succeeded have given it. -/
def HasKey (P : Pem) (d : Dir) (olds : List PC) (b : Bytes) : Prop :=
  b.length = 64 ∧ (∃ off, d.priv = some ((P.encode true b).take off) ∧ P.decode ((P.encode true b).take off) = some b) ∧
    ∀ k, PC.done k ∈ olds → k = .of b

/-- Between two calls. -/
def Between (P : Pem) (d : Dir) (olds : List PC) : Prop :=
  (d.priv = none ∧ NoneDone olds) ∨
  (∃ b off, b.length = 64 ∧ d.priv = some ((P.encode true b).take off) ∧ NoneDone olds) ∨
  ∃ b, HasKey P d olds b

def Phase (P : Pem) (d : Dir) (olds : List PC) : PC → Prop
  | .generate => d.priv = none ∧ NoneDone olds
  | .openPriv b => b.length = 64 ∧ d.priv = none ∧ NoneDone olds
  | .writePriv b off => b.length = 64 ∧ off ≤ (P.encode true b).length ∧ d.priv = some ((P.encode true b).take off) ∧
      NoneDone olds
  | .openPub b | .writePub b _ | .statPub b => HasKey P d olds b
  | .done k => ∃ b, k = .of b ∧ HasKey P d olds b
  | _ => Between P d olds

theorem hasKey_keep {d d' : Dir} {olds : List PC} {b : Bytes} (h : HasKey P d olds b) (hd : d'.priv = d.priv) :
    HasKey P d' olds b := by
  obtain ⟨h1, h2, h3⟩ := h
  exact ⟨h1, by rw [hd]; exact h2, h3⟩

theorem phase_step {d d' : Dir} {olds : List PC} {pc pc' : PC} {e : Ev} (h : Phase P d olds pc)
    (hs : callStep P d pc e = some (d', pc')) : Phase P d' olds pc' := by
  cases pc <;> cases e <;> simp only [callStep, reduceCtorEq] at hs <;> (repeat' split at hs) <;>
    (try (simp at hs; done)) <;> simp only [Option.some.injEq, Prod.mk.injEq] at hs <;> obtain ⟨hd, hp⟩ := hs <;> subst hd <;>
    subst hp <;> simp only [Phase] at h ⊢ <;> (try (exact h))
  · rename_i hn
    rcases h with h | ⟨b, off, _, h, _⟩ | ⟨b, _, ⟨off, h, _⟩, _⟩
    · exact h
    · rw [hn] at h; simp at h
    · rw [hn] at h; simp at h
  · exact Or.inl h
  · rename_i hk
    exact ⟨hk, h⟩
  · refine ⟨h.1, by omega, ?_, h.2.2⟩
    rw [h.2.1]; simp
  · exact Or.inl h.2
  · rename_i hk
    obtain ⟨h1, h2, h3, h4⟩ := h
    refine ⟨h1, ⟨_, h3, ?_⟩, fun k hk => absurd hk (h4 k)⟩
    rw [hk, List.take_length, P.decode_encode]
  · obtain ⟨h1, h2, h3, h4⟩ := h
    exact Or.inr (Or.inl ⟨_, _, h1, h3, h4⟩)
  · rename_i hn
    obtain ⟨h1, h2, h3, h4⟩ := h
    refine ⟨h1, hn.2, ?_, h4⟩
    rw [h3, Option.map_some, writeAt_take _ _ _ hn.2]
  · exact Or.inr (Or.inr ⟨_, h⟩)
  · exact ⟨_, rfl, h⟩
  · exact Or.inr (Or.inr ⟨_, h⟩)
  · rename_i text ht _ k hk
    simp only [parseKey] at hk
    split at hk <;> try (simp at hk; done)
    rename_i k' hdec
    split at hk <;> try (simp at hk; done)
    simp only [Outcome.ok.injEq] at hk
    subst hk
    rcases h with ⟨h, _⟩ | ⟨b, off, h1, h, h2⟩ | ⟨b, h1, ⟨off, h, h2⟩, h3⟩
    · rw [ht] at h; simp at h
    · rw [ht, Option.some.injEq] at h
      subst h
      rcases P.decode_take true b off with h | h
      · rw [h] at hdec; simp at hdec
      · rw [h, Option.some.injEq] at hdec
        subst hdec
        exact ⟨h1, ⟨off, ht, h⟩, fun k hk => absurd hk (h2 k)⟩
    · rw [ht, Option.some.injEq] at h
      subst h
      rw [h2, Option.some.injEq] at hdec
      subst hdec
      exact ⟨h1, ⟨off, ht, h2⟩, h3⟩
  · exact ⟨_, rfl, h⟩
  · exact ⟨_, rfl, h⟩

/-- Calls one after the other, whatever fails or crashes. -/
def SeqInv (P : Pem) (s : State) : Prop :=
  s = .init ∨ ∃ olds pc, s.calls = olds ++ [pc] ∧ (∀ p ∈ olds, p.ended = true) ∧ Phase P s.dir olds pc

theorem phase_ended {d : Dir} {olds : List PC} {pc : PC} (h : Phase P d olds pc) (he : pc.ended = true) :
    Between P d (olds ++ [pc]) := by
  have key : (∀ k, pc ≠ .done k) → Between P d olds → Between P d (olds ++ [pc]) := by
    intro hn hb
    have hm : ∀ k, PC.done k ∈ olds ++ [pc] → PC.done k ∈ olds := by
      intro k hk
      rcases List.mem_append.mp hk with hk | hk
      · exact hk
      · exact absurd (List.mem_singleton.mp hk).symm (hn k)
    rcases hb with ⟨h1, h2⟩ | ⟨b, off, h1, h2, h3⟩ | ⟨b, h1, h2, h3⟩
    · exact Or.inl ⟨h1, fun k hk => h2 k (hm k hk)⟩
    · exact Or.inr (Or.inl ⟨b, off, h1, h2, fun k hk => h3 k (hm k hk)⟩)
    · exact Or.inr (Or.inr ⟨b, h1, h2, fun k hk => h3 k (hm k hk)⟩)
  cases pc <;> simp only [PC.ended, Bool.false_eq_true] at he <;> simp only [Phase] at h
  · obtain ⟨b, rfl, h1, h2, h3⟩ := h
    refine Or.inr (Or.inr ⟨b, h1, h2, ?_⟩)
    intro k hk
    rcases List.mem_append.mp hk with hk | hk
    · exact h3 k hk
    · simpa using hk
  all_goals exact key (by simp) h

theorem callStep_ended {d : Dir} {pc : PC} {e : Ev} (h : pc.ended = true) : callStep P d pc e = none := by
  cases pc <;> simp only [PC.ended, Bool.false_eq_true] at h <;> cases e <;> rfl

/-- Only the last call is not over. -/
theorem last_call {olds : List PC} {pc p : PC} {i : Nat} (ho : ∀ p ∈ olds, p.ended = true)
    (hi : (olds ++ [pc])[i]? = some p) (hp : p.ended = false) : i = olds.length ∧ p = pc := by
  rw [List.getElem?_append] at hi
  split at hi
  · have := ho p (List.mem_of_getElem? hi)
    rw [this] at hp; simp at hp
  · rw [List.getElem?_singleton] at hi
    split at hi
    · exact ⟨by omega, by simpa using hi.symm⟩
    · simp at hi

theorem set_last (olds : List PC) (pc pc' : PC) : (olds ++ [pc]).set olds.length pc' = olds ++ [pc'] := by
  simp

theorem phase_crash {d : Dir} {olds : List PC} {pc : PC} (h : Phase P d olds pc) (he : pc.ended = false) :
    Between P d olds := by
  cases pc <;> simp only [PC.ended, Bool.true_eq_false] at he <;> simp only [Phase] at h
  case generate => exact Or.inl h
  case openPriv => exact Or.inl h.2
  case writePriv => exact Or.inr (Or.inl ⟨_, _, h.1, h.2.2.1, h.2.2.2⟩)
  case openPub => exact Or.inr (Or.inr ⟨_, h⟩)
  case writePub => exact Or.inr (Or.inr ⟨_, h⟩)
  case statPub => exact Or.inr (Or.inr ⟨_, h⟩)
  all_goals exact h

theorem seqInv_step {s s' : State} {a : Act} (h : SeqInv P s) (ht : inTurn s a) (hs : step P s a = some s') :
    SeqInv P s' := by
  right
  cases a with
  | call =>
    simp only [step, Option.some.injEq] at hs
    subst hs
    rcases h with rfl | ⟨olds, pc, hc, ho, hp⟩
    · exact ⟨[], .start, rfl, by simp, Or.inl ⟨rfl, by intro k; simp⟩⟩
    · refine ⟨olds ++ [pc], .start, by rw [hc], ?_, ?_⟩
      · rw [← hc]; exact ht
      · exact phase_ended hp (ht pc (by rw [hc]; simp))
  | run i e =>
    simp only [step] at hs
    split at hs <;> try (simp at hs; done)
    rename_i p hpc
    split at hs <;> try (simp at hs; done)
    rename_i d pc' hcs
    simp only [Option.some.injEq] at hs
    subst hs
    rcases h with rfl | ⟨olds, pc, hc, ho, hp⟩
    · simp [State.init] at hpc
    · have hne : p.ended = false := by
        apply Bool.eq_false_iff.mpr
        intro he
        rw [callStep_ended he] at hcs; simp at hcs
      rw [hc] at hpc
      obtain ⟨rfl, rfl⟩ := last_call ho hpc hne
      refine ⟨olds, pc', by rw [hc, set_last], ho, phase_step hp hcs⟩
  | crash i =>
    simp only [step] at hs
    split at hs <;> try (simp at hs; done)
    rename_i p hpc
    split at hs <;> try (simp at hs; done)
    rename_i hne
    simp only [Option.some.injEq] at hs
    subst hs
    rcases h with rfl | ⟨olds, pc, hc, ho, hp⟩
    · simp [State.init] at hpc
    · rw [hc] at hpc
      have hne : p.ended = false := by simpa using hne
      obtain ⟨rfl, rfl⟩ := last_call ho hpc hne
      exact ⟨olds, .dead, by rw [hc, set_last], ho, phase_crash hp hne⟩

theorem seqInv {c : Bool} {s : State} (h : Sequential P c s) : SeqInv P s := by
  induction h with
  | init => exact Or.inl rfl
  | step a _ ht _ hs ih => exact seqInv_step ih ht hs

/-! ### Calls one after the other, without failures -/

/-- The directory has both files. -/
def Full (P : Pem) (d : Dir) (olds : List PC) (b : Bytes) : Prop :=
  b.length = 64 ∧ d = ⟨some (P.encode true b), some (P.encode false (publicOf b))⟩ ∧ ∀ pc ∈ olds, pc = .done (.of b)

def CleanPhase (P : Pem) (d : Dir) (olds : List PC) : PC → Prop
  | .start | .stat => (d = ⟨none, none⟩ ∧ olds = []) ∨ ∃ b, Full P d olds b
  | .generate => d = ⟨none, none⟩ ∧ olds = []
  | .openPriv b => b.length = 64 ∧ d = ⟨none, none⟩ ∧ olds = []
  | .writePriv b off => b.length = 64 ∧ off ≤ (P.encode true b).length ∧ d = ⟨some ((P.encode true b).take off), none⟩ ∧
      olds = []
  | .openPub b => b.length = 64 ∧ d = ⟨some (P.encode true b), none⟩ ∧ olds = []
  | .writePub b off => b.length = 64 ∧ off ≤ (P.encode false (publicOf b)).length ∧
      d = ⟨some (P.encode true b), some ((P.encode false (publicOf b)).take off)⟩ ∧ olds = []
  | .read => ∃ b, Full P d olds b
  | .statPub b => Full P d olds b
  | .done k => ∃ b, k = .of b ∧ Full P d olds b
  | .failed | .panicked | .dead => False

theorem cleanPhase_step {d d' : Dir} {olds : List PC} {pc pc' : PC} {e : Ev} (h : CleanPhase P d olds pc)
    (hs : callStep P d pc e = some (d', pc')) (he : e ≠ .fail) : CleanPhase P d' olds pc' := by
  cases pc <;> cases e <;> (try (exact absurd rfl he)) <;> simp only [callStep, reduceCtorEq] at hs <;>
    (repeat' split at hs) <;> (try (simp at hs; done)) <;> simp only [Option.some.injEq, Prod.mk.injEq] at hs <;>
    obtain ⟨hd, hp⟩ := hs <;> subst hd <;> subst hp <;> simp only [CleanPhase] at h ⊢ <;> (try (exact h))
  · rename_i hn
    rcases h with h | ⟨b, _, h, _⟩
    · exact h
    · rw [h] at hn; simp at hn
  · rename_i hn
    rcases h with h | h
    · rw [h.1] at hn; simp at hn
    · exact h
  · rename_i hk
    exact ⟨hk, h⟩
  · obtain ⟨h1, rfl, h3⟩ := h
    exact ⟨h1, by omega, by simp, h3⟩
  · rename_i hk
    obtain ⟨h1, h2, rfl, h3⟩ := h
    exact ⟨h1, by rw [hk, List.take_length], h3⟩
  · rename_i hn
    obtain ⟨h1, h2, rfl, h3⟩ := h
    refine ⟨h1, hn.2, ?_, h3⟩
    simp only [Option.map_some, writeAt_take _ _ _ hn.2]
  · obtain ⟨h1, rfl, h3⟩ := h
    exact ⟨h1, by omega, by simp, h3⟩
  · rename_i hk
    obtain ⟨h1, h2, rfl, rfl⟩ := h
    exact ⟨_, rfl, h1, by rw [hk, List.take_length], by simp⟩
  · rename_i hn
    obtain ⟨h1, h2, rfl, h3⟩ := h
    refine ⟨h1, hn.2, ?_, h3⟩
    simp only [Option.map_some, writeAt_take _ _ _ hn.2]
  · rename_i hn
    obtain ⟨b, _, rfl, _⟩ := h
    simp at hn
  · rename_i text ht _ k hk
    obtain ⟨b, h1, h2, h3⟩ := h
    rw [h2] at ht
    simp only [Option.some.injEq] at ht
    subst ht
    simp only [parseKey, P.decode_encode, h1] at hk
    simp at hk
    subst hk
    exact ⟨h1, h2, h3⟩
  · rename_i text ht _ hk
    obtain ⟨b, h1, h2, h3⟩ := h
    rw [h2] at ht
    simp only [Option.some.injEq] at ht
    subst ht
    simp [parseKey, P.decode_encode, h1] at hk
  · rename_i text ht _ hk _
    obtain ⟨b, h1, h2, h3⟩ := h
    rw [h2] at ht
    simp only [Option.some.injEq] at ht
    subst ht
    simp [parseKey, P.decode_encode, h1] at hk
  · rename_i hn
    rw [h.2.1] at hn; simp at hn
  · exact ⟨_, rfl, h⟩

def CleanInv (P : Pem) (s : State) : Prop :=
  s = .init ∨ ∃ olds pc, s.calls = olds ++ [pc] ∧ (∀ p ∈ olds, p.ended = true) ∧ CleanPhase P s.dir olds pc

theorem cleanInv_step {s s' : State} {a : Act} (h : CleanInv P s) (ht : inTurn s a) (hm : smooth a)
    (hs : step P s a = some s') : CleanInv P s' := by
  right
  cases a with
  | call =>
    simp only [step, Option.some.injEq] at hs
    subst hs
    rcases h with rfl | ⟨olds, pc, hc, ho, hp⟩
    · exact ⟨[], .start, rfl, by simp, Or.inl ⟨rfl, rfl⟩⟩
    · refine ⟨olds ++ [pc], .start, by rw [hc], by rw [← hc]; exact ht, ?_⟩
      have he := ht pc (by rw [hc]; simp)
      cases pc <;> simp only [PC.ended, Bool.false_eq_true] at he <;> simp only [CleanPhase] at hp
      obtain ⟨b, rfl, h1, h2, h3⟩ := hp
      refine Or.inr ⟨b, h1, h2, ?_⟩
      intro p hp
      rcases List.mem_append.mp hp with hp | hp
      · exact h3 p hp
      · simpa using hp
  | run i e =>
    simp only [step] at hs
    split at hs <;> try (simp at hs; done)
    rename_i p hpc
    split at hs <;> try (simp at hs; done)
    rename_i d pc' hcs
    simp only [Option.some.injEq] at hs
    subst hs
    rcases h with rfl | ⟨olds, pc, hc, ho, hp⟩
    · simp [State.init] at hpc
    · have hne : p.ended = false := by
        apply Bool.eq_false_iff.mpr
        intro he
        rw [callStep_ended he] at hcs; simp at hcs
      rw [hc] at hpc
      obtain ⟨rfl, rfl⟩ := last_call ho hpc hne
      refine ⟨olds, pc', by rw [hc, set_last], ho, cleanPhase_step hp hcs hm⟩
  | crash i => exact absurd hm (by simp [smooth])

theorem cleanInv {s : State} (h : Sequential P true s) : CleanInv P s := by
  induction h with
  | init => exact Or.inl rfl
  | step a _ ht hm hs ih => exact cleanInv_step ih ht (hm rfl) hs

theorem encode_pos (t : Bool) (b : Bytes) : 0 < (P.encode t b).length := by
  apply Nat.pos_of_ne_zero
  intro h
  have := P.decode_encode t b
  rw [List.length_eq_zero_iff.mp h, P.decode_nil] at this
  simp at this

end Verif.Identity
