import Verif.Lemmas.Identity
/-!
# Identities: C57 - C59, C80, C81
-/
namespace Verif.Identity

variable {P : Pem}

/-! ### Examples and witnesses -/

/-- Two private keys. -/
def key1 : Bytes := (List.range 64).map (BitVec.ofNat 8 ·)
def key2 : Bytes := (List.range 64).map fun i => BitVec.ofNat 8 (i + 100)

/-- The length of the text for a private key and for a public key. -/
def privLen : Nat := (pemText true key1).length
def pubLen : Nat := (pemText false (publicOf key1)).length

/-- A call that finds nothing, generates `k` and gets as far as having written the first file. -/
def creates (i : Nat) (k : Bytes) : List Act :=
  [.call, .run i .go, .run i .go, .run i (.key k), .run i .go, .run i (.write 10), .run i (.write (privLen - 10)), .run i .go]

/-- And the second file. -/
def savesPub (i : Nat) : List Act := [.run i .go, .run i (.write pubLen), .run i .go]

/-- A call that finds both files. -/
def loads (i : Nat) : List Act := [.call, .run i .go, .run i .go, .run i .go, .run i .go]

def stateOf (o : Option State) : State := o.getD .init

def after (as : List Act) : State := stateOf (runActs realPem .init as)

theorem stateOf_eq {o : Option State} (h : o.isSome = true) : o = some (stateOf o) := by
  cases o <;> simp_all [stateOf]

instance (s : State) (a : Act) : Decidable (inTurn s a) := by
  cases a <;> simp only [inTurn] <;> infer_instance

instance (a : Act) : Decidable (smooth a) := by
  cases a <;> simp only [smooth] <;> infer_instance

/-- Is this a history of the kind `Sequential`? -/
def checkSeq (clean : Bool) : State → List Act → Bool
  | _, [] => true
  | s, a :: as =>
    decide (inTurn s a) && (!clean || decide (smooth a)) &&
      match step realPem s a with
      | some s' => checkSeq clean s' as
      | none => false

theorem checkSeq_sound {clean : Bool} (as : List Act) {s : State} (hs : Sequential realPem clean s)
    (h : checkSeq clean s as = true) : Sequential realPem clean (stateOf (runActs realPem s as)) := by
  induction as generalizing s with
  | nil => exact hs
  | cons a as ih =>
    simp only [checkSeq, Bool.and_eq_true, decide_eq_true_eq, Bool.or_eq_true, Bool.not_eq_true'] at h
    obtain ⟨⟨h1, h2⟩, h3⟩ := h
    split at h3
    · rename_i s' hs'
      simp only [runActs, hs']
      exact ih (.step a hs h1 (fun hc => h2.resolve_left (by simp [hc])) hs') h3
    · simp at h3

theorem sequential_after {clean : Bool} {as : List Act} (h : checkSeq clean .init as = true) :
    Sequential realPem clean (after as) := checkSeq_sound as .init h

/-! ### C57 -/

theorem between_done {d : Dir} {calls : List PC} {k : Keys} (h : Between P d calls) (hk : PC.done k ∈ calls) :
    ∃ b, k = .of b ∧ HasKey P d calls b := by
  rcases h with ⟨_, h⟩ | ⟨_, _, _, _, h⟩ | ⟨b, h1, h2, h3⟩
  · exact absurd hk (h k)
  · exact absurd hk (h k)
  · exact ⟨b, h3 k hk, h1, h2, h3⟩

theorem done_hasKey {olds : List PC} {d : Dir} {pc : PC} {k : Keys} (hp : Phase P d olds pc) (hk : PC.done k ∈ olds ++ [pc]) :
    ∃ b, k = .of b ∧ HasKey P d (olds ++ [pc]) b := by
  by_cases he : pc.ended = true
  · exact between_done (phase_ended hp he) hk
  · have hb := phase_crash hp (by simpa using he)
    have hk' : PC.done k ∈ olds := by
      rcases List.mem_append.mp hk with h | h
      · exact h
      · rw [List.mem_singleton] at h; subst h; simp [PC.ended] at he
    obtain ⟨b, h1, h2, h3, h4⟩ := between_done hb hk'
    refine ⟨b, h1, h2, h3, ?_⟩
    intro k hk
    rcases List.mem_append.mp hk with h | h
    · exact h4 k h
    · rw [List.mem_singleton] at h; subst h; simp [PC.ended] at he

/-- C57, calls one after the other: all calls of `NewIdentity` that succeed give the same keys, whatever fails or crashes
before, between and after them; these are the keys in the file. -/
theorem C57_sequential_partial {clean : Bool} {s : State} {k : Keys} (h : Sequential P clean s) (hk : PC.done k ∈ s.calls) :
    (∀ k', PC.done k' ∈ s.calls → k' = k) ∧ k.priv.length = 64 ∧ k.pub = k.priv.drop 32 ∧
    ∃ text, s.dir.priv = some text ∧ P.decode text = some k.priv := by
  rcases seqInv h with rfl | ⟨olds, pc, hc, ho, hp⟩
  · simp [State.init] at hk
  · rw [hc] at hk ⊢
    obtain ⟨b, rfl, h1, ⟨off, h2, h3⟩, h4⟩ := done_hasKey hp hk
    exact ⟨fun k' hk' => h4 k' hk', h1, rfl, _, h2, h3⟩

/-- A history with a crash, two failures and three successes. -/
example : Sequential realPem false (after ([.call, .run 0 .go, .crash 0] ++ creates 1 key1 ++ [.run 1 .fail] ++ loads 2 ++ [.run 2 .go,
      .run 2 (.write pubLen), .run 2 .go] ++ [.call, .run 3 .fail] ++ loads 4 ++ loads 5)) ∧
    (after ([.call, .run 0 .go, .crash 0] ++ creates 1 key1 ++ [.run 1 .fail] ++ loads 2 ++ [.run 2 .go,
      .run 2 (.write pubLen), .run 2 .go] ++ [.call, .run 3 .fail] ++ loads 4 ++ loads 5)).calls =
    [.dead, .failed, .done (.of key1), .failed, .done (.of key1), .done (.of key1)] :=
  ⟨sequential_after (by decide +kernel), by decide +kernel⟩

/-- C57: once a call has succeeded, and calls were made one after the other so far, the private key file is never changed
any more and all later calls that succeed give these keys, also if they are made at the same time, and whatever fails or
crashes. -/
theorem C57_stable_partial {clean : Bool} {s s' : State} {k : Keys} {as : List Act} (h : Sequential P clean s)
    (hk : PC.done k ∈ s.calls) (hr : runActs P s as = some s') :
    s'.dir.priv = s.dir.priv ∧ ∀ k', PC.done k' ∈ s'.calls → k' = k := by
  obtain ⟨hall, hlen, hpub, text, ht, hdec⟩ := C57_sequential_partial h hk
  have hkk : k = .of k.priv := by
    cases k; simp only at hpub; subst hpub; rfl
  have hset : Settled P k.priv s := by
    refine ⟨⟨text, ht, hdec⟩, hlen, ?_⟩
    rcases seqInv h with rfl | ⟨olds, pc, hc, ho, hp⟩
    · simp [State.init] at hk
    · intro p hpm
      rw [hc] at hpm hk
      obtain ⟨b, hb, h1, ⟨off, h2, h3⟩, h4⟩ := done_hasKey hp hk
      rcases List.mem_append.mp hpm with hpo | hpo
      · have := ho p hpo
        cases p <;> simp only [PC.ended, Bool.false_eq_true] at this <;> simp [PC.creating, PC.key]
      · rw [List.mem_singleton] at hpo
        subst hpo
        have same : ∀ b', HasKey P s.dir olds b' → b' = k.priv := by
          rintro b' ⟨_, ⟨off', h5, h6⟩, _⟩
          rw [ht, Option.some.injEq] at h5
          rw [← h5, hdec, Option.some.injEq] at h6
          exact h6.symm
        have nd : ∀ {d' : Dir}, d'.priv = none → d' = s.dir → False := by
          intro d' h5 h6
          rw [h6, ht] at h5; simp at h5
        cases p <;> simp only [Phase] at hp <;> simp only [PC.creating, PC.key, Option.some.injEq, forall_eq', true_and,
          reduceCtorEq, false_implies, implies_true, and_self, Bool.true_eq_false, false_and]
        · exact nd hp.1 rfl
        · exact nd hp.2.1 rfl
        · rcases List.mem_append.mp hk with hk | hk
          · exact hp.2.2.2 k hk
          · simp at hk
        · exact same _ hp
        · exact same _ hp
        · exact same _ hp
  have := runActs_preserves (P := P)
    (Q := fun x => Settled P k.priv x ∧ x.dir.priv = s.dir.priv ∧ ∀ k', PC.done k' ∈ x.calls → k' = k)
    (fun x x' a hq hst => by
      obtain ⟨h1, h2, h3⟩ := hq
      obtain ⟨g1, g2, g3⟩ := settled_step h1 hst
      refine ⟨g1, by rw [g2, h2], ?_⟩
      intro k' hk'
      obtain ⟨i, hi⟩ := List.getElem?_of_mem hk'
      rcases g3 i k' hi with hi | rfl
      · exact h3 k' (List.mem_of_getElem? hi)
      · exact hkk.symm) as ⟨hset, rfl, hall⟩ hr
  exact this.2

/-- C57: without failures and crashes no call of a sequence of calls fails, and the first one has made both files. -/
theorem C57_no_failure {s : State} (h : Sequential P true s) {pc : PC} (hm : pc ∈ s.calls) (he : pc.ended = true) :
    ∃ b, pc = .done (.of b) ∧ b.length = 64 ∧
      s.dir = ⟨some (P.encode true b), some (P.encode false (publicOf b))⟩ := by
  rcases cleanInv h with rfl | ⟨olds, cur, hc, ho, hp⟩
  · simp [State.init] at hm
  · rw [hc] at hm
    have full : ∀ b, Full P s.dir olds b → pc ∈ olds → ∃ b, pc = .done (.of b) ∧ b.length = 64 ∧
        s.dir = ⟨some (P.encode true b), some (P.encode false (publicOf b))⟩ := fun b h hm => ⟨b, h.2.2 pc hm, h.1, h.2.1⟩
    rcases List.mem_append.mp hm with hmo | hm
    · clear hm
      cases cur <;> simp only [CleanPhase] at hp
      · rcases hp with ⟨_, rfl⟩ | ⟨b, hp⟩
        · simp at hmo
        · exact full b hp hmo
      · rcases hp with ⟨_, rfl⟩ | ⟨b, hp⟩
        · simp at hmo
        · exact full b hp hmo
      · rw [hp.2] at hmo; simp at hmo
      · rw [hp.2.2] at hmo; simp at hmo
      · rw [hp.2.2.2] at hmo; simp at hmo
      · rw [hp.2.2] at hmo; simp at hmo
      · rw [hp.2.2.2] at hmo; simp at hmo
      · obtain ⟨b, hp⟩ := hp
        exact full b hp hmo
      · exact full _ hp hmo
      · obtain ⟨b, _, hp⟩ := hp
        exact full b hp hmo
    · rw [List.mem_singleton] at hm
      subst hm
      cases pc <;> simp only [PC.ended, Bool.false_eq_true] at he <;> simp only [CleanPhase] at hp
      obtain ⟨b, rfl, hp⟩ := hp
      exact ⟨b, rfl, hp.1, hp.2.1⟩

example : Sequential realPem true (after (creates 0 key1 ++ savesPub 0 ++ loads 1)) ∧
    (after (creates 0 key1 ++ savesPub 0 ++ loads 1)).calls = [.done (.of key1), .done (.of key1)] :=
  ⟨sequential_after (by decide +kernel), by decide +kernel⟩

/-- C57 is violated for two first calls at the same time: both succeed, with different keys, and a later call gives the
keys of one of them. -/
theorem C57_violated : ∃ as s, runActs realPem .init as = some s ∧
    s.calls = [.done (.of key1), .done (.of key2), .done (.of key2)] ∧ key1 ≠ key2 := by
  let as : List Act := [.call, .call, .run 0 .go, .run 0 .go, .run 1 .go, .run 1 .go] ++ (creates 0 key1).drop 3 ++ savesPub 0 ++
    (creates 1 key2).drop 3 ++ savesPub 1 ++ loads 2
  exact ⟨as, _, stateOf_eq (by decide +kernel), by decide +kernel, by decide +kernel⟩

/-- C57 is violated: the two calls may even leave a key that nobody has generated. -/
theorem C57_violated_mixed : ∃ as s k, runActs realPem .init as = some s ∧
    s.calls = [.done (.of key1), .done (.of key2), .done (.of k)] ∧ k ≠ key1 ∧ k ≠ key2 := by
  let as : List Act := [.call, .call, .run 0 .go, .run 0 .go, .run 1 .go, .run 1 .go,
    .run 0 (.key key1), .run 0 .go, .run 0 (.write 80), .run 1 (.key key2), .run 1 .go, .run 1 (.write privLen), .run 1 .go,
    .run 0 (.write (privLen - 80)), .run 0 .go] ++ savesPub 0 ++ savesPub 1 ++ loads 2
  exact ⟨as, _, ((pemRead ((stateOf (runActs realPem .init as)).dir.priv.getD [])).getD []), stateOf_eq (by decide +kernel),
    by decide +kernel, by decide +kernel, by decide +kernel⟩

/-- Steps of one call. -/
theorem run_call {d d' : Dir} {calls : List PC} {pc pc' : PC} {e : Ev} (h : callStep P d pc e = some (d', pc')) :
    step P ⟨d, calls ++ [pc]⟩ (.run calls.length e) = some ⟨d', calls ++ [pc']⟩ := by
  simp [step, h]

/-- The rest of a call that has to save the public key. -/
theorem finish_pub (calls : List PC) (text b : Bytes) : ∃ as s', (∀ a ∈ as, ∃ e, a = .run calls.length e ∧ e ≠ .fail) ∧
    runActs P ⟨⟨some text, none⟩, calls ++ [.openPub b]⟩ as = some s' ∧ s'.calls = calls ++ [.done (.of b)] := by
  have hp := encode_pos (P := P) false (publicOf b)
  refine ⟨[.run calls.length .go, .run calls.length (.write (P.encode false (publicOf b)).length), .run calls.length .go],
    ⟨⟨some text, some (P.encode false (publicOf b))⟩, calls ++ [.done (.of b)]⟩, by simp, ?_, rfl⟩
  · simp only [runActs]
    rw [run_call (P := P) (d' := ⟨some text, some []⟩) (pc' := .writePub b 0) (by simp [callStep])]
    simp only
    rw [run_call (P := P) (d' := ⟨some text, some (P.encode false (publicOf b))⟩)
      (pc' := .writePub b (P.encode false (publicOf b)).length) (by simp [callStep, hp, writeAt])]
    simp only
    rw [run_call (P := P) (d' := ⟨some text, some (P.encode false (publicOf b))⟩) (pc' := .done (.of b))
      (by simp [callStep])]

/-- C57: a call that nobody disturbs and in which nothing fails succeeds, when there is no key yet or a readable one. -/
theorem C57_completes {s : State} (h : s.dir = ⟨none, none⟩ ∨ ∃ text b, s.dir.priv = some text ∧ P.decode text = some b ∧
      b.length = 64) :
    ∃ as s' k, (∀ a ∈ as, a = .call ∨ ∃ e, a = .run s.calls.length e ∧ e ≠ .fail) ∧ runActs P s as = some s' ∧
      s'.calls = s.calls ++ [.done k] := by
  obtain ⟨d, calls⟩ := s
  have hcall : step P ⟨d, calls⟩ .call = some ⟨d, calls ++ [.start]⟩ := rfl
  have h1 : step P ⟨d, calls ++ [.start]⟩ (.run calls.length .go) = some ⟨d, calls ++ [.stat]⟩ := run_call rfl
  rcases h with h | ⟨text, b, ht, hdec, hlen⟩
  · simp only at h
    subst h
    have hp := encode_pos (P := P) true key1
    obtain ⟨as, s', ha, hr, hc⟩ := finish_pub (P := P) calls (P.encode true key1) key1
    refine ⟨[.call, .run calls.length .go, .run calls.length .go, .run calls.length (.key key1), .run calls.length .go,
      .run calls.length (.write (P.encode true key1).length), .run calls.length .go] ++ as, s', .of key1, ?_, ?_, hc⟩
    · intro a hm
      rcases List.mem_append.mp hm with hm | hm
      · simp only [List.mem_cons, List.not_mem_nil, or_false] at hm
        rcases hm with rfl | rfl | rfl | rfl | rfl | rfl | rfl <;> simp
      · exact Or.inr (ha a hm)
    · rw [runActs_append]
      simp only [runActs, hcall, h1]
      rw [run_call (P := P) (d' := ⟨none, none⟩) (pc' := .generate) (by simp [callStep])]
      simp only
      rw [run_call (P := P) (d' := ⟨none, none⟩) (pc' := .openPriv key1) (by simp [callStep]; decide)]
      simp only
      rw [run_call (P := P) (d' := ⟨some [], none⟩) (pc' := .writePriv key1 0) (by simp [callStep])]
      simp only
      rw [run_call (P := P) (d' := ⟨some (P.encode true key1), none⟩) (pc' := .writePriv key1 (P.encode true key1).length)
        (by simp [callStep, hp, writeAt])]
      simp only
      rw [run_call (P := P) (d' := ⟨some (P.encode true key1), none⟩) (pc' := .openPub key1) (by simp [callStep])]
      exact hr
  · obtain ⟨priv, pub⟩ := d
    simp only at ht
    subst ht
    have h2 : step P ⟨⟨some text, pub⟩, calls ++ [.stat]⟩ (.run calls.length .go) =
        some ⟨⟨some text, pub⟩, calls ++ [.read]⟩ := run_call (by simp [callStep])
    have h3 : step P ⟨⟨some text, pub⟩, calls ++ [.read]⟩ (.run calls.length .go) =
        some ⟨⟨some text, pub⟩, calls ++ [.statPub b]⟩ := run_call (by simp [callStep, parseKey, hdec, hlen])
    cases pub with
    | none =>
      obtain ⟨as, s', ha, hr, hc⟩ := finish_pub (P := P) calls text b
      refine ⟨[.call, .run calls.length .go, .run calls.length .go, .run calls.length .go, .run calls.length .go] ++ as, s',
        .of b, ?_, ?_, hc⟩
      · intro a hm
        rcases List.mem_append.mp hm with hm | hm
        · simp only [List.mem_cons, List.not_mem_nil, or_false] at hm
          rcases hm with rfl | rfl | rfl | rfl | rfl <;> simp
        · exact Or.inr (ha a hm)
      · rw [runActs_append]
        simp only [runActs, hcall, h1, h2, h3]
        rw [run_call (P := P) (d' := ⟨some text, none⟩) (pc' := .openPub b) (by simp [callStep])]
        exact hr
    | some p =>
      refine ⟨[.call, .run calls.length .go, .run calls.length .go, .run calls.length .go, .run calls.length .go],
        ⟨⟨some text, some p⟩, calls ++ [.done (.of b)]⟩, .of b, ?_, ?_, rfl⟩
      rotate_left
      · simp only [runActs, hcall, h1, h2, h3]
        rw [run_call (P := P) (d' := ⟨some text, some p⟩) (pc' := .done (.of b)) (by simp [callStep])]
      · intro a hm
        simp only [List.mem_cons, List.not_mem_nil, or_false] at hm
        rcases hm with rfl | rfl | rfl | rfl | rfl <;> simp

example : State.init.dir = ⟨none, none⟩ ∧ realPem.decode (pemText true key1) = some key1 ∧ key1.length = 64 := by
  decide +kernel

/-! ### C58 -/

/-- C58: what is left after crashes and failures of calls that were made one after the other. Either there is no private
key yet and a further call may generate one, or the file is readable and all further calls that succeed give this key,
or the file is not readable. -/
theorem C58_outcomes_partial {s : State} (h : Sequential P false s) (he : ∀ pc ∈ s.calls, pc.ended = true) :
    (s.dir.priv = none ∧ ∀ k, PC.done k ∉ s.calls) ∨
    (∃ text b, s.dir.priv = some text ∧ P.decode text = some b ∧ b.length = 64 ∧
      ∀ as s' k, runActs P s as = some s' → PC.done k ∈ s'.calls → k = .of b) ∨
    (∃ text, s.dir.priv = some text ∧ P.decode text = none ∧ ∀ k, PC.done k ∉ s.calls) := by
  have hb : Between P s.dir s.calls := by
    rcases seqInv h with rfl | ⟨olds, pc, hc, ho, hp⟩
    · exact Or.inl ⟨rfl, by intro k; simp [State.init]⟩
    · rw [hc]
      exact phase_ended hp (he pc (by rw [hc]; simp))
  have later : ∀ text b, s.dir.priv = some text → P.decode text = some b → b.length = 64 →
      (∀ k, PC.done k ∈ s.calls → k = .of b) →
      ∀ as s' k, runActs P s as = some s' → PC.done k ∈ s'.calls → k = .of b := by
    intro text b ht hd hl hk as s' k hr hm
    have hset : Settled P b s := by
      refine ⟨⟨text, ht, hd⟩, hl, ?_⟩
      intro pc hpc
      have := he pc hpc
      cases pc <;> simp only [PC.ended, Bool.false_eq_true] at this <;> simp [PC.creating, PC.key]
    have := runActs_preserves (P := P) (Q := fun x => Settled P b x ∧ ∀ k', PC.done k' ∈ x.calls → k' = .of b)
      (fun x x' a hq hst => by
        obtain ⟨h1, h3⟩ := hq
        obtain ⟨g1, g2, g3⟩ := settled_step h1 hst
        refine ⟨g1, ?_⟩
        intro k' hk'
        obtain ⟨i, hi⟩ := List.getElem?_of_mem hk'
        rcases g3 i k' hi with hi | rfl
        · exact h3 k' (List.mem_of_getElem? hi)
        · rfl) as ⟨hset, hk⟩ hr
    exact this.2 k hm
  rcases hb with ⟨h1, h2⟩ | ⟨b, off, h1, h2, h3⟩ | ⟨b, h1, ⟨off, h2, h3⟩, h4⟩
  · exact Or.inl ⟨h1, h2⟩
  · rcases P.decode_take true b off with hd | hd
    · exact Or.inr (Or.inr ⟨_, h2, hd, h3⟩)
    · exact Or.inr (Or.inl ⟨_, b, h2, hd, h1, later _ b h2 hd h1 (fun k hk => absurd hk (h3 k))⟩)
  · exact Or.inr (Or.inl ⟨_, b, h2, h3, h1, later _ b h2 h3 h1 h4⟩)

/-- All three cases occur. -/
example : (after [.call, .run 0 .go, .crash 0]).dir.priv = none ∧
    (after (creates 0 key1 ++ [.crash 0])).dir.priv = some (pemText true key1) ∧
    (after ((creates 0 key1).take 5 ++ [.crash 0])).dir.priv = some [] ∧
    checkSeq false .init ((creates 0 key1).take 5 ++ [.crash 0]) = true := by decide +kernel

/-- The private key file can not be read, and nobody is creating another one. -/
def Broken (P : Pem) (s : State) : Prop :=
  (∃ text, s.dir.priv = some text ∧ P.decode text = none) ∧
    ∀ pc ∈ s.calls, pc.creating = false ∧ pc.key = none ∧ ∀ k, pc ≠ .done k

theorem broken_call {d d' : Dir} {pc pc' : PC} {e : Ev} (hf : ∃ text, d.priv = some text ∧ P.decode text = none)
    (hq : pc.creating = false ∧ pc.key = none ∧ ∀ k, pc ≠ .done k) (hs : callStep P d pc e = some (d', pc')) :
    d' = d ∧ pc'.creating = false ∧ pc'.key = none ∧ (∀ k, pc' ≠ .done k) ∧ (pc = .read → pc' = .panicked ∨ e = .fail) := by
  obtain ⟨text, h1, h2⟩ := hf
  obtain ⟨h3, h4, h5⟩ := hq
  cases pc <;> cases e <;> simp only [callStep, reduceCtorEq] at hs <;> (try (simp [PC.creating] at h3; done)) <;>
    (try (simp [PC.key] at h4; done)) <;> (try simp only [h1, parseKey, h2] at hs) <;> (repeat' split at hs) <;>
    (try (simp at hs; done)) <;> simp only [Option.some.injEq, Prod.mk.injEq] at hs <;> obtain ⟨hd, hp⟩ := hs <;> subst hd <;>
    subst hp <;> simp_all [PC.creating, PC.key]

/-- C58 is violated: a crash (or a full disk) between the creation of the private key file and its last bytes; every
further call of `NewIdentity` on this directory panics, as far as it gets to reading the file, and none of them ever
succeeds. -/
theorem C58_violated : ∃ s, Sequential realPem false s ∧ s.calls = [.dead] ∧ s.dir.priv = some [] ∧
    (∃ s', runActs realPem s [.call, .run 1 .go, .run 1 .go, .run 1 .go] = some s' ∧ s'.calls = [.dead, .panicked]) ∧
    ∀ as s' k, runActs realPem s as = some s' → PC.done k ∉ s'.calls := by
  refine ⟨after ((creates 0 key1).take 5 ++ [.crash 0]), sequential_after (by decide +kernel), by decide +kernel,
    by decide +kernel, ⟨_, stateOf_eq (by decide +kernel), by decide +kernel⟩, ?_⟩
  intro as s' k hr
  have := runActs_preserves (P := realPem) (Q := Broken realPem) (fun s s' a hq hs => ?_) as ?_ hr
  · intro hk
    exact (this.2 _ hk).2.2 k rfl
  · obtain ⟨hf, hq⟩ := hq
    cases a with
    | call =>
      simp only [step, Option.some.injEq] at hs
      subst hs
      refine ⟨hf, ?_⟩
      intro pc hpc
      rcases List.mem_append.mp hpc with h | h
      · exact hq pc h
      · rw [List.mem_singleton.mp h]; simp [PC.creating, PC.key]
    | run i e =>
      simp only [step] at hs
      split at hs <;> try (simp at hs; done)
      rename_i pc hpc
      split at hs <;> try (simp at hs; done)
      rename_i d pc' hc
      simp only [Option.some.injEq] at hs
      subst hs
      obtain ⟨h1, h2, h3, h4, _⟩ := broken_call hf (hq pc (List.mem_of_getElem? hpc)) hc
      refine ⟨by rw [h1]; exact hf, ?_⟩
      intro p hp
      rcases List.mem_or_eq_of_mem_set hp with hp | rfl
      · exact hq p hp
      · exact ⟨h2, h3, h4⟩
    | crash i =>
      simp only [step] at hs
      split at hs <;> try (simp at hs; done)
      split at hs <;> try (simp at hs; done)
      simp only [Option.some.injEq] at hs
      subst hs
      refine ⟨hf, ?_⟩
      intro p hp
      rcases List.mem_or_eq_of_mem_set hp with hp | rfl
      · exact hq p hp
      · simp [PC.creating, PC.key]
  · refine ⟨⟨[], by decide +kernel, by decide +kernel⟩, ?_⟩
    have : (after ((creates 0 key1).take 5 ++ [.crash 0])).calls = [.dead] := by decide +kernel
    rw [this]
    simp [PC.creating, PC.key]

/-! ### C59 -/

/-- C59, private keys. -/
theorem C59_private (priv : Bytes) :
    (priv.length = 64 → newIdentityFromPrivateKey priv = .ok ⟨priv.drop 32, priv⟩) ∧
    (priv.length ≠ 64 → newIdentityFromPrivateKey priv = .err (.wrongLength 64 priv.length)) := by
  simp only [newIdentityFromPrivateKey, publicOf]
  constructor <;> intro h <;> simp [h]

/-- C59, public keys. -/
theorem C59_public (pub : Bytes) :
    (pub.length = 32 → newRemoteIdentityFromPublicKey pub = .ok ⟨pub, []⟩) ∧
    (pub.length ≠ 32 → newRemoteIdentityFromPublicKey pub = .err (.wrongLength 32 pub.length)) := by
  simp only [newRemoteIdentityFromPublicKey]
  constructor <;> intro h <;> simp [h]

/-- C59: every identity that is made from a private key has a public key that is accepted, and it is the one that is
embedded in the private key. -/
theorem C59_embedded (priv : Bytes) (k : Keys) (h : newIdentityFromPrivateKey priv = .ok k) :
    newRemoteIdentityFromPublicKey k.pub = .ok ⟨k.pub, []⟩ ∧ ∃ seed, seed.length = 32 ∧ k.priv = seed ++ k.pub := by
  simp only [newIdentityFromPrivateKey, publicOf] at h
  split at h <;> try (simp at h; done)
  rename_i hl
  have hl : priv.length = 64 := by omega
  simp only [Outcome.ok.injEq] at h
  subst h
  refine ⟨?_, priv.take 32, by simp [hl], by simp⟩
  simp [newRemoteIdentityFromPublicKey, hl]

example : newIdentityFromPrivateKey key1 = .ok (.of key1) := by decide +kernel

/-! ### C80 -/

/-- C80: a key file that has a PEM block is accepted if the key has the right length, and gives an error otherwise. -/
theorem C80_block_partial (text b : Bytes) (h : P.decode text = some b) :
    (b.length = 32 → newRemoteIdentity P (some text) = .ok ⟨b, []⟩) ∧
    (b.length ≠ 32 → newRemoteIdentity P (some text) = .err (.wrongLength 32 b.length)) := by
  simp only [newRemoteIdentity, parseKey, h]
  constructor <;> intro hl <;> simp [hl]

example : realPem.decode (pemText false (publicOf key1)) = some (publicOf key1) := by decide +kernel

/-- The lines of the text have 64 characters, except the last one, which may have fewer. -/
theorem pemLines (l : Bytes) : linesFrom 0 l =
    if l = [] then [] else if l.length < 64 then l ++ [10] else l.take 64 ++ 10 :: linesFrom 0 (l.drop 64) := by
  split
  · next h => rw [h, linesFrom, if_pos rfl]
  · next h =>
    have : 0 < l.length := List.length_pos_iff.mpr h
    split
    · exact linesFrom_short 0 l (by omega) (by omega)
    · exact linesFrom_long 0 l (by omega) (by omega)

/-- The private key 00 01 … 3f as a text. -/
example : pemText true key1 = ascii ("-----BEGIN ED25519 PRIVATE KEY-----\n\
    AAECAwQFBgcICQoLDA0ODxAREhMUFRYXGBkaGxwdHh8gISIjJCUmJygpKissLS4v\n\
    MDEyMzQ1Njc4OTo7PD0+Pw==\n-----END ED25519 PRIVATE KEY-----\n").toList := by
  decide +kernel

/-- C80 is violated: every file without a PEM block crashes the program, e. g. an empty one. -/
theorem C80_violated (text : Bytes) (h : P.decode text = none) : newRemoteIdentity P (some text) = .panic ∧
    callStep P ⟨some text, none⟩ .read .go = some (⟨some text, none⟩, .panicked) := by
  simp [newRemoteIdentity, callStep, parseKey, h]

example : ∀ P : Pem, P.decode [] = none := fun P => P.decode_nil

/-! ### C81 -/

/-- C81: when calls are made one after the other and nothing fails, the public key file gives the public key of the
identity. -/
theorem C81_matches_partial {s : State} {k : Keys} (h : Sequential P true s) (hk : PC.done k ∈ s.calls) :
    newRemoteIdentity P s.dir.pub = .ok ⟨k.pub, []⟩ := by
  obtain ⟨b, h1, h2, h3⟩ := C57_no_failure h hk rfl
  simp only [PC.done.injEq] at h1
  subst h1
  rw [h3]
  have : (publicOf b).length = 32 := by simp [publicOf, h2]
  exact (C80_block_partial _ _ (P.decode_encode false (publicOf b))).1 this

/-- C81 is violated: a crash or a failure while the public key file is written. Later calls succeed and leave the file as
it is. -/
theorem C81_violated : ∃ s k, Sequential realPem false s ∧ PC.done k ∈ s.calls ∧
    newRemoteIdentity realPem s.dir.pub = .panic := by
  refine ⟨after (creates 0 key1 ++ [.run 0 .go, .run 0 (.write 50), .run 0 .fail] ++ loads 1), .of key1,
    sequential_after (by decide +kernel), ?_, by decide +kernel⟩
  have : (after (creates 0 key1 ++ [.run 0 .go, .run 0 (.write 50), .run 0 .fail] ++ loads 1)).calls =
      [.failed, .done (.of key1)] := by decide +kernel
  rw [this]; simp

#print axioms C57_sequential_partial
#print axioms C57_stable_partial
#print axioms C57_no_failure
#print axioms C57_violated
#print axioms C57_violated_mixed
#print axioms C57_completes
#print axioms C58_outcomes_partial
#print axioms C58_violated
#print axioms C59_private
#print axioms C59_public
#print axioms C59_embedded
#print axioms C80_block_partial
#print axioms C80_violated
#print axioms C81_matches_partial
#print axioms C81_violated

end Verif.Identity
