import Verif.Model.SizeChange
import Verif.Props.Send
/-!
# C141: with fragmentation no message is refused for its size
-/
namespace Verif.SizeChange
open Verif.Send Verif.Headers

def Reachable (cfg : Cfg) (s : State) : Prop := ∃ as, run cfg (.init cfg) as = some s

/-- Sizes with which a session can work: fragments of at least one byte, and no overflow of the packet size (C20, C18). -/
def Workable (e : W32) : Prop := 25 ≤ e.toNat ∧ e.toNat + 53 < 2 ^ 32

/-- What leaves for an accepted message: the whole payload, if it is not bigger than the size, or fragments which cover it exactly. -/
def Carried (e : W32) (t : W32) (payload : Bytes) (jobs : List Job) : Prop :=
  (payload.length ≤ e.toNat ∧ jobs = [wholeJob t payload]) ∨
  ∃ chain fs, Covers fs chain e.toNat payload ∧ jobs = fs.map (pieceJob t)

/-- What is known about a call in a session on which `Close` has not been called. -/
def Known (s : State) : Call → Prop
  | .whole _ p seen => len32 p ≤ seen.toNat
  | .pieces _ p fs => s.established = true ∧ (Workable s.size → p.length + 53 < 2 ^ 32 → ∃ chain, Covers fs chain s.size.toNat p)
  | .accepted t p jobs => s.established = true ∧ (Workable s.size → p.length + 53 < 2 ^ 32 → Carried s.size t p jobs)
  | .refused _ p seen => s.established = true ∧
      (Workable s.size → p.length + 53 < 2 ^ 32 → s.size.toNat < p.length ∧ p.length ≤ seen.toNat)
  | _ => True

theorem packet_at (cfg : Cfg) {e : W32} (h : Workable e) : packetSize (cfg.at e) = e.toNat + 53 := by
  have := h.2
  simp only [packetSize, Cfg.at, containerHeadersSize, messageHeadersSize]; omega

theorem message_length (t : W32) (flags : Byte) (p : Bytes) : (messageBytes t flags p).length = 9 + p.length := by
  simp [messageBytes, putLE_length]; omega

theorem whole_tooBig (cfg : Cfg) {e : W32} (h : Workable e) (t : W32) {p : Bytes} (hp : p.length ≤ e.toNat) :
    tooBig cfg e (wholeJob t p) = false := by
  have := h.2
  simp only [tooBig, wholeJob, single, len32, message_length, packet_at cfg h, containerHeadersSize, decide_eq_false_iff_not]
  omega

theorem piece_tooBig (cfg : Cfg) {e : W32} (h : Workable e) (t : W32) {f : Fragment} (hf : f.payload.length + 24 ≤ e.toNat) :
    tooBig cfg e (pieceJob t f) = false := by
  have := h.2
  simp only [tooBig, pieceJob, single, len32, message_length, packet_at cfg h, containerHeadersSize, decide_eq_false_iff_not,
    fragmentPayload, List.length_append, putLE_length]
  omega

/-- `Known` needs only the size, and that the session is established. -/
theorem known_congr {s s' : State} {c : Call} (he : s'.established = s.established) (hz : s'.size = s.size) (h : Known s c) : Known s' c := by
  cases c <;> simp only [Known, he, hz] at h ⊢ <;> exact h

theorem goWhole_frame (cfg : Cfg) (s : State) (e t : W32) (p : Bytes) (seen : W32) :
    (goWhole cfg s e t p seen).1.established = s.established ∧ (goWhole cfg s e t p seen).1.size = s.size ∧
    (goWhole cfg s e t p seen).1.closing = s.closing ∧ (goWhole cfg s e t p seen).1.calls = s.calls := by
  unfold goWhole
  simp only
  split
  · split
    · split <;> exact ⟨rfl, rfl, rfl, rfl⟩
    · exact ⟨rfl, rfl, rfl, rfl⟩
  · split <;> exact ⟨rfl, rfl, rfl, rfl⟩

/-- A call changes nothing else. -/
theorem callStep_frame {cfg : Cfg} {s s' : State} {zero : Bool} {c c' : Call} (hs : callStep cfg s zero c = some (s', c')) :
    s'.established = s.established ∧ s'.size = s.size ∧ s'.closing = s.closing ∧ s'.calls = s.calls := by
  cases c <;> simp only [callStep] at hs
  case start =>
    split at hs
    · split at hs <;> (cases hs; exact ⟨rfl, rfl, rfl, rfl⟩)
    · cases hs; exact ⟨rfl, rfl, rfl, rfl⟩
  case whole t p seen =>
    split at hs
    · rename_i e _
      have := goWhole_frame cfg s e t p seen
      rw [Option.some.inj hs] at this
      exact this
    · cases hs
  case split =>
    split at hs
    · split at hs
      · cases hs; exact ⟨rfl, rfl, rfl, rfl⟩
      · cases hs
    · cases hs
  case pieces =>
    split at hs
    · split at hs <;> (cases hs; exact ⟨rfl, rfl, rfl, rfl⟩)
    · cases hs
  all_goals cases hs

/-- In one step of a call. -/
theorem known_call {cfg : Cfg} (hf : cfg.fragmentation = true) {s s' : State} {zero : Bool} {c c' : Call} (hc : s.closing = false)
    (h : Known s c) (hs : callStep cfg s zero c = some (s', c')) :
    Known s' c' := by
  have hread : ∀ {e}, s.read zero = some e → s.established = true ∧ e = s.size := by
    intro e he
    simp only [State.read, hc, Bool.false_eq_true, if_false] at he
    split at he
    · rename_i h1; exact ⟨h1, (Option.some.inj he).symm⟩
    · simp at he
  cases c with
  | start t p =>
    simp only [callStep, hf, if_true] at hs
    split at hs
    · simp only [Option.some.injEq, Prod.mk.injEq] at hs; obtain ⟨rfl, rfl⟩ := hs; trivial
    · simp only [Option.some.injEq, Prod.mk.injEq] at hs; obtain ⟨rfl, rfl⟩ := hs
      simp only [Known]; omega
  | whole t p seen =>
    simp only [callStep] at hs
    split at hs
    · rename_i e he
      obtain ⟨h1, rfl⟩ := hread he
      simp only [Known] at h
      have hl : p.length + 53 < 2 ^ 32 → len32 p = p.length := fun hl => Nat.mod_eq_of_lt (by omega)
      simp only [Option.some.injEq] at hs
      unfold goWhole at hs
      simp only at hs
      split at hs
      · split at hs
        · split at hs
          · simp only [Prod.mk.injEq] at hs; obtain ⟨rfl, rfl⟩ := hs
            refine ⟨h1, fun hw hp => ?_⟩
            rename_i hb h0
            rw [packet_at cfg hw, h0] at hb
            simp only [containerHeadersSize, messageHeadersSize] at hb
            rw [hl hp] at h
            omega
          · simp only [Prod.mk.injEq] at hs; obtain ⟨rfl, rfl⟩ := hs
            exact h
        · simp only [Prod.mk.injEq] at hs; obtain ⟨rfl, rfl⟩ := hs
          refine ⟨h1, fun hw hp => .inl ⟨?_, rfl⟩⟩
          rename_i hb
          rw [packet_at cfg hw] at hb
          simp only [containerHeadersSize, messageHeadersSize] at hb
          simp only
          omega
      · split at hs
        · simp only [Prod.mk.injEq] at hs; obtain ⟨rfl, rfl⟩ := hs
          refine ⟨h1, fun hw hp => ?_⟩
          rename_i hb
          rw [hl hp] at h
          refine ⟨Nat.lt_of_not_le fun hle => ?_, h⟩
          rw [whole_tooBig cfg hw t hle] at hb; simp at hb
        · simp only [Prod.mk.injEq] at hs; obtain ⟨rfl, rfl⟩ := hs
          refine ⟨h1, fun hw hp => .inl ⟨?_, rfl⟩⟩
          rename_i hb
          simp only [tooBig, wholeJob, single, len32, message_length, packet_at cfg hw, containerHeadersSize,
            decide_eq_true_eq] at hb
          have := hw.2
          omega
    · simp at hs
  | split t p =>
    simp only [callStep] at hs
    split at hs
    · rename_i e he
      obtain ⟨h1, rfl⟩ := hread he
      split at hs
      · rename_i fs hfs
        simp only [Option.some.injEq, Prod.mk.injEq] at hs; obtain ⟨rfl, rfl⟩ := hs
        refine ⟨h1, fun hw hp => ?_⟩
        obtain ⟨fs', h2, h3⟩ := C20_covers (cfg.at s.size) hw.1 s.chain p (by omega)
        rw [hfs] at h2
        cases h2
        exact ⟨_, h3⟩
      · simp at hs
    · simp at hs
  | pieces t p fs =>
    simp only [callStep] at hs
    split at hs
    · rename_i e he
      obtain ⟨h1, rfl⟩ := hread he
      obtain ⟨-, h⟩ := h
      split at hs
      · simp only [Option.some.injEq, Prod.mk.injEq] at hs; obtain ⟨rfl, rfl⟩ := hs
        refine ⟨h1, fun hw hp => ?_⟩
        rename_i hany
        obtain ⟨f, hm, hb⟩ := List.any_eq_true.mp hany
        obtain ⟨chain, hcov⟩ := h hw hp
        rw [piece_tooBig cfg hw t (by have := (hcov.fits f hm).2; omega)] at hb
        simp at hb
      · simp only [Option.some.injEq, Prod.mk.injEq] at hs; obtain ⟨rfl, rfl⟩ := hs
        refine ⟨h1, fun hw hp => .inr ?_⟩
        obtain ⟨chain, hcov⟩ := h hw hp
        exact ⟨chain, fs, hcov, rfl⟩
    · simp at hs
  | accepted | refused | cancelled => simp [callStep] at hs

def Inv (s : State) : Prop := s.closing = false → ∀ (i : Nat) (c : Call), s.calls[i]? = some c → Known s c

theorem inv_step {cfg : Cfg} (hf : cfg.fragmentation = true) {s s' : State} {a : Act} (h : Inv s) (hs : step cfg s a = some s') : Inv s' := by
  intro hc' i c hi
  cases a with
  | call t p =>
    simp only [step] at hs
    split at hs
    · simp at hs
    · simp only [Option.some.injEq] at hs; subst hs
      simp only [List.getElem?_append] at hi
      split at hi
      · exact known_congr rfl rfl (h hc' i c hi)
      · rcases List.getElem?_singleton .. ▸ hi with hi
        split at hi
        · cases hi; trivial
        · simp at hi
  | go j zero =>
    simp only [step] at hs
    split at hs
    · rename_i d hd
      split at hs
      · rename_i s1 c1 hcs
        simp only [Option.some.injEq] at hs; subst hs
        obtain ⟨h2, h3, h4, h5⟩ := callStep_frame hcs
        have hc : s.closing = false := by rw [← h4]; exact hc'
        have h1 := known_call hf hc (h hc j d hd) hcs
        rw [h5] at hi
        by_cases hj : j = i
        · subst hj
          rw [List.getElem?_set_self (by exact (List.getElem?_eq_some_iff.mp hd).1)] at hi
          cases hi
          exact known_congr rfl rfl h1
        · rw [List.getElem?_set_ne hj] at hi
          exact known_congr h2 h3 (h hc i c hi)
      · simp at hs
    · simp at hs
  | cancel j =>
    simp only [step] at hs
    split at hs
    · split at hs
      · rename_i hcl
        simp only [Option.some.injEq] at hs; subst hs
        simp only [Bool.and_eq_true] at hcl
        simp [hcl.1] at hc'
      · simp at hs
    · simp at hs
  | negotiated e =>
    simp only [step] at hs
    split at hs
    · simp at hs
    · rename_i he
      simp only [Option.some.injEq] at hs; subst hs
      have := h hc' i c hi
      cases c <;> simp only [Known, he] at this ⊢ <;>
        first | exact this | exact absurd this.1 (by simp)
  | establish =>
    simp only [step] at hs
    split at hs
    · simp at hs
    · rename_i he
      simp only [Option.some.injEq] at hs; subst hs
      have := h hc' i c hi
      cases c <;> simp only [Known, he] at this ⊢ <;>
        first | exact this | exact absurd this.1 (by simp)
  | flush => simp only [step, Option.some.injEq] at hs; subst hs; exact known_congr rfl rfl (h hc' i c hi)
  | close => simp only [step, Option.some.injEq] at hs; subst hs; simp at hc'

theorem run_inv {cfg : Cfg} {P : State → Prop} (hP : ∀ {s s' : State} {a : Act}, P s → step cfg s a = some s' → P s') :
    ∀ (as : List Act) {s s' : State}, P s → run cfg s as = some s' → P s' := by
  intro as
  induction as with
  | nil => intro s s' h hr; cases hr; exact h
  | cons a as ih =>
    intro s s' h hr
    simp only [run] at hr
    split at hr
    · rename_i s1 hs; exact ih (hP h hs) hr
    · cases hr

theorem inv {cfg : Cfg} (hf : cfg.fragmentation = true) {s : State} (hr : Reachable cfg s) : Inv s := by
  obtain ⟨as, hr⟩ := hr
  exact run_inv (fun h hs => inv_step hf h hs) as (fun _ i c h => by simp [State.init] at h) hr

/-- C141, the only reason for a refusal: in a session with fragmentation, on which `Close` has not been called, a message is only
refused when it was not bigger than the size when the call began, and is bigger than the size that was established since. -/
theorem C141_reason {cfg : Cfg} (hf : cfg.fragmentation = true) {s : State} (hr : Reachable cfg s) (hc : s.closing = false)
    (hw : Workable s.size) {i : Nat} {t : W32} {p : Bytes} {seen : W32} (hp : p.length + 53 < 2 ^ 32)
    (h : s.calls[i]? = some (.refused t p seen)) :
    s.established = true ∧ s.size.toNat < p.length ∧ p.length ≤ seen.toNat := by
  obtain ⟨h1, h2⟩ := inv hf hr hc i _ h
  exact ⟨h1, h2 hw hp⟩

/-- C141: what is accepted is carried by the messages that leave. -/
theorem C141_carried {cfg : Cfg} (hf : cfg.fragmentation = true) {s : State} (hr : Reachable cfg s) (hc : s.closing = false)
    (hw : Workable s.size) {i : Nat} {t : W32} {p : Bytes} {jobs : List Job} (hp : p.length + 53 < 2 ^ 32)
    (h : s.calls[i]? = some (.accepted t p jobs)) : Carried s.size t p jobs :=
  (inv hf hr hc i _ h).2 hw hp

/-- Calls from number `n` on have begun after the session was established. -/
def Late (n : Nat) (e : W32) (s : State) : Prop :=
  s.established = true ∧ s.size = e ∧ (s.closing = false → ∀ (i : Nat), n ≤ i → ∀ t p seen,
    s.calls[i]? = some (.whole t p seen) ∨ s.calls[i]? = some (.refused t p seen) → seen = e)

theorem late_call {cfg : Cfg} {s s' : State} {zero : Bool} {c c' : Call} (hc : s.closing = false)
    (h : ∀ t p seen, c = .whole t p seen → seen = s.size) (hs : callStep cfg s zero c = some (s', c')) :
    ∀ t p seen, c' = .whole t p seen ∨ c' = .refused t p seen → seen = s.size := by
  intro t p seen h'
  have hread : ∀ {e}, s.read zero = some e → e = s.size := by
    intro e he
    simp only [State.read, hc, Bool.false_eq_true, if_false] at he
    split at he
    · exact (Option.some.inj he).symm
    · simp at he
  cases c <;> simp only [callStep] at hs
  case start =>
    split at hs
    · split at hs <;> (cases hs; rcases h' with h' | h' <;> cases h'; try rfl)
    · cases hs; rcases h' with h' | h' <;> cases h'; rfl
  case whole t1 p1 seen1 =>
    have := h t1 p1 seen1 rfl
    split at hs
    · rename_i e he
      simp only [goWhole, Option.some.injEq] at hs
      split at hs
      · split at hs
        · split at hs <;> (cases hs; rcases h' with h' | h' <;> cases h'; exact this)
        · cases hs; rcases h' with h' | h' <;> cases h'
      · split at hs <;> (cases hs; rcases h' with h' | h' <;> cases h'; try exact this)
    · cases hs
  case split =>
    split at hs
    · split at hs
      · cases hs; rcases h' with h' | h' <;> cases h'
      · cases hs
    · cases hs
  case pieces =>
    split at hs
    · rename_i e he
      have := hread he
      split at hs <;> (cases hs; rcases h' with h' | h' <;> cases h'; try exact this)
    · cases hs
  all_goals cases hs

theorem late_step {cfg : Cfg} {n : Nat} {e : W32} {s s' : State} {a : Act} (h : Late n e s) (hs : step cfg s a = some s') :
    Late n e s' := by
  obtain ⟨he, hz, h⟩ := h
  cases a with
  | call t p =>
    simp only [step] at hs
    split at hs
    · cases hs
    · cases hs
      refine ⟨he, hz, fun hc i hi t1 p1 seen h' => ?_⟩
      refine h hc i hi t1 p1 seen ?_
      simp only [List.getElem?_append, List.getElem?_singleton] at h'
      split at h'
      · exact h'
      · split at h' <;> simp at h'
  | go j zero =>
    simp only [step] at hs
    split at hs
    · rename_i d hd
      split at hs
      · rename_i s1 c1 hcs
        cases hs
        obtain ⟨h2, h3, h4, h5⟩ := callStep_frame hcs
        refine ⟨h2.trans he, h3.trans hz, fun hc i hi t1 p1 seen h' => ?_⟩
        have hc : s.closing = false := h4.symm.trans hc
        simp only [h5] at h'
        by_cases hj : j = i
        · subst hj
          rw [List.getElem?_set_self (by exact (List.getElem?_eq_some_iff.mp hd).1)] at h'
          simp only [Option.some.injEq] at h'
          rw [← hz]
          refine late_call hc (fun t p seen hd' => ?_) hcs t1 p1 seen h'
          rw [hz]
          exact h hc j hi t p seen (.inl (by rw [hd, hd']))
        · rw [List.getElem?_set_ne hj] at h'
          exact h hc i hi t1 p1 seen h'
      · cases hs
    · cases hs
  | cancel j =>
    simp only [step] at hs
    split at hs
    · split at hs
      · rename_i hcl
        cases hs
        simp only [Bool.and_eq_true] at hcl
        exact ⟨he, hz, fun hc => by simp [hcl.1] at hc⟩
      · cases hs
    · cases hs
  | negotiated e => simp [step, he] at hs
  | establish => simp [step, he] at hs
  | flush => cases hs; exact ⟨he, hz, h⟩
  | close => cases hs; exact ⟨he, hz, fun hc => by simp at hc⟩

/-- C141 (restriction that holds): in a session with fragmentation, on which `Close` has not been called, no message is refused
for its size if the call begins when the session is Established.
Missing for the full C141: calls that begin before, see `C141_violated`. -/
theorem C141_partial {cfg : Cfg} (hf : cfg.fragmentation = true) {s s' : State} (hr : Reachable cfg s) (he : s.established = true)
    (hw : Workable s.size) {as : List Act} (hrun : run cfg s as = some s') (hc : s'.closing = false) {i : Nat}
    (hi : s.calls.length ≤ i) {t : W32} {p : Bytes} {seen : W32} (hp : p.length + 53 < 2 ^ 32) :
    s'.calls[i]? ≠ some (.refused t p seen) := by
  intro h
  have hlate : Late s.calls.length s.size s' := run_inv (fun h hs => late_step h hs) as
    ⟨he, rfl, fun _ j hj t p seen h' => by
      rw [List.getElem?_eq_none hj] at h'; rcases h' with h' | h' <;> cases h'⟩ hrun
  have hr' : Reachable cfg s' := by
    obtain ⟨as0, h0⟩ := hr
    exact ⟨as0 ++ as, run_append h0 hrun⟩
  have h1 := C141_reason hf hr' hc (by rw [hlate.2.1]; exact hw) hp h
  have h2 := hlate.2.2 hc i hi t p seen (.inr h)
  rw [h2, hlate.2.1] at h1
  omega
where
  run_append {cfg : Cfg} : ∀ {as0 as : List Act} {s0 s s' : State}, run cfg s0 as0 = some s → run cfg s as = some s' →
      run cfg s0 (as0 ++ as) = some s'
  | [], _, _, _, _, h0, h1 => by cases h0; exact h1
  | a :: as0, as, s0, s, s', h0, h1 => by
    simp only [run] at h0
    simp only [List.cons_append, run]
    split at h0
    · exact run_append h0 h1
    · cases h0

theorem run_cons {cfg : Cfg} {s s1 : State} {a : Act} {as : List Act} (h : step cfg s a = some s1) :
    run cfg s (a :: as) = run cfg s1 as := by simp only [run, h]

theorem goWhole_accepts (cfg : Cfg) (s : State) {e : W32} (hw : Workable e) (t : W32) {p : Bytes} (hp : p.length ≤ e.toNat) (seen : W32)
    (hb : s.buf = 0) : (goWhole cfg s e t p seen).2 = .accepted t p [wholeJob t p] := by
  have hd : ¬ containerHeadersSize + s.buf + messageHeadersSize + p.length > packetSize (cfg.at e) := by
    rw [packet_at cfg hw, hb]; simp only [containerHeadersSize, messageHeadersSize]; omega
  unfold goWhole
  simp only
  split
  · rfl
  · rw [whole_tooBig cfg hw t hp]; rfl

/-- C141: such a call is accepted when it goes on (with a delay: when the buffer has been sent before). -/
theorem C141_accepted (cfg : Cfg) (hf : cfg.fragmentation = true) (s : State) (he : s.established = true) (hc : s.closing = false)
    (hw : Workable s.size) {t : W32} (ht : isInternal t = false) {p : Bytes} (hp : p.length + 53 < 2 ^ 32) :
    ∃ as s' jobs, run cfg s (.call t p :: as) = some s' ∧ s'.calls[s.calls.length]? = some (.accepted t p jobs) := by
  have hl : len32 p = p.length := Nat.mod_eq_of_lt (by omega)
  have hget : ∀ (c : Call), (s.calls ++ [c])[s.calls.length]? = some c := fun c => by simp
  have hset : ∀ (c d : Call), (s.calls ++ [c]).set s.calls.length d = s.calls ++ [d] := fun c d => by simp
  have h0 : step cfg s (.call t p) = some { s with calls := s.calls ++ [.start t p] } := by simp [step, ht]
  by_cases hb : p.length ≤ s.size.toNat
  · refine ⟨[.go s.calls.length false, .flush, .go s.calls.length false], ?_⟩
    have h1 : step cfg { s with calls := s.calls ++ [.start t p] } (.go s.calls.length false) =
        some { s with calls := s.calls ++ [.whole t p s.size] } := by
      simp only [step, hget, callStep, hl]
      rw [if_neg (by omega)]
      simp only [hset]
    have h2 : step cfg { s with calls := s.calls ++ [.whole t p s.size] } .flush =
        some { s with calls := s.calls ++ [.whole t p s.size], buf := 0 } := rfl
    rw [run_cons h0, run_cons h1, run_cons h2]
    have h3 := goWhole_accepts cfg { s with calls := s.calls ++ [.whole t p s.size], buf := 0 } hw t hb s.size rfl
    have h4 := (goWhole_frame cfg { s with calls := s.calls ++ [.whole t p s.size], buf := 0 } s.size t p s.size).2.2.2
    refine ⟨_, [wholeJob t p], by
      simp only [run, step, hget, callStep, State.read, hc, he, Bool.false_eq_true, if_false, if_true]; rfl, ?_⟩
    rw [hc, he] at h3 h4
    simp only [h3, h4, hset, hget]
  · refine ⟨[.go s.calls.length false, .go s.calls.length false, .go s.calls.length false], ?_⟩
    obtain ⟨fs, hfs, hcov⟩ := C20_covers (cfg.at s.size) hw.1 s.chain p (by omega)
    have h1 : step cfg { s with calls := s.calls ++ [.start t p] } (.go s.calls.length false) =
        some { s with calls := s.calls ++ [.split t p] } := by
      simp only [step, hget, callStep, hl, hf]
      rw [if_pos (by omega)]
      simp only [hset, if_true]
    have h2 : step cfg { s with calls := s.calls ++ [.split t p] } (.go s.calls.length false) =
        some { s with calls := s.calls ++ [.pieces t p fs], chain := s.chain + 1 } := by
      simp only [step, hget, callStep, State.read, hc, he, Bool.false_eq_true, if_false, if_true, hfs, hset]
    rw [run_cons h0, run_cons h1, run_cons h2]
    have h3 : fs.any (fun f => tooBig cfg s.size (pieceJob t f)) = false := by
      rw [List.any_eq_false]
      intro f hm
      rw [piece_tooBig cfg hw t (by have := (hcov.fits f hm).2; simp only [Cfg.at] at this; omega)]
      simp
    simp only [run, step, hget, callStep, State.read, hc, he, Bool.false_eq_true, if_false, if_true, h3, hset]
    exact ⟨_, _, rfl, hget _⟩

theorem goWhole_refuses (cfg : Cfg) (s : State) {e : W32} (he : e.toNat + 53 < 2 ^ 32) (t : W32) {p : Bytes} (hp : p.length + 53 < 2 ^ 32)
    (h : e.toNat < p.length) (seen : W32) (hb : s.buf = 0) : goWhole cfg s e t p seen = (s, .refused t p seen) := by
  have hps : packetSize (cfg.at e) = e.toNat + 53 := by
    simp only [packetSize, Cfg.at, containerHeadersSize, messageHeadersSize]; omega
  have hj : tooBig cfg e (wholeJob t p) = true := by
    simp only [tooBig, wholeJob, single, len32, message_length, hps, containerHeadersSize, decide_eq_true_eq]
    omega
  have hd : containerHeadersSize + s.buf + messageHeadersSize + p.length > packetSize (cfg.at e) := by
    rw [hps]; simp only [containerHeadersSize, messageHeadersSize]; omega
  unfold goWhole
  simp only
  split
  · rfl
  · rfl

/-- Negation of C141: whatever the limit, the size that the negotiation finds and the payload between the two, a call that begins
before the session is Established is refused for the size, though fragmentation is on. -/
theorem C141_violated (cfg : Cfg) {e : W32} (he : e.toNat + 53 < 2 ^ 32) {t : W32} (ht : isInternal t = false) {p : Bytes}
    (hp : p.length + 53 < 2 ^ 32) (h1 : p.length ≤ cfg.limit.toNat) (h2 : e.toNat < p.length) :
    ∃ s, Reachable cfg s ∧ s.closing = false ∧ s.established = true ∧ s.size = e ∧ s.calls = [.refused t p cfg.limit] := by
  have hl : len32 p = p.length := Nat.mod_eq_of_lt (by omega)
  refine ⟨{ State.init cfg with size := e, established := true, calls := [.refused t p cfg.limit] },
    ⟨[.call t p, .go 0 false, .negotiated e, .establish, .go 0 false], ?_⟩, rfl, rfl, rfl, rfl⟩
  have a1 : step cfg (.init cfg) (.call t p) = some { State.init cfg with calls := [.start t p] } := by
    simp [step, ht, State.init]
  have a2 : step cfg { State.init cfg with calls := [.start t p] } (.go 0 false) =
      some { State.init cfg with calls := [.whole t p cfg.limit] } := by
    simp only [step, List.getElem?_cons_zero, callStep, hl, State.init]
    rw [if_neg (by omega)]
    rfl
  have a3 : step cfg { State.init cfg with calls := [.whole t p cfg.limit] } (.negotiated e) =
      some { State.init cfg with size := e, calls := [.whole t p cfg.limit] } := rfl
  have a4 : step cfg { State.init cfg with size := e, calls := [.whole t p cfg.limit] } .establish =
      some { State.init cfg with size := e, established := true, calls := [.whole t p cfg.limit] } := rfl
  rw [run_cons a1, run_cons a2, run_cons a3, run_cons a4]
  have h3 := goWhole_refuses cfg { State.init cfg with size := e, established := true, calls := [.whole t p cfg.limit] } he t hp h2 cfg.limit rfl
  simp only [State.init] at h3 ⊢
  simp only [run, step, List.getElem?_cons_zero, callStep, State.read, Bool.false_eq_true, if_false, if_true, h3, List.set_cons_zero]

/-- A path for 1400 bytes, and a write of 3000 bytes before the session is Established. -/
example : ∃ s, Reachable ⟨60000, true, true⟩ s ∧ s.closing = false ∧ s.established = true ∧ s.size = 1400 ∧
    s.calls = [.refused 7 (List.replicate 3000 1) 60000] :=
  C141_violated ⟨60000, true, true⟩ (by decide) (by decide) (by rw [List.length_replicate]; omega)
    (by rw [List.length_replicate]; decide) (by rw [List.length_replicate]; decide)

/-- The same in a session that was established before. -/
example : ∃ s, Reachable ⟨60000, true, true⟩ s ∧ s.established = true ∧ s.closing = false ∧ Workable s.size :=
  ⟨{ State.init ⟨60000, true, true⟩ with size := 1400, established := true }, ⟨[.negotiated 1400, .establish], rfl⟩, rfl, rfl,
    by constructor <;> decide⟩

/-- The jobs of `Carried`: the flags of a whole message are those of `WriteMessage` (confidential, unless it is of the key exchange), those of
a piece say that it is a fragment. -/
example : wholeJob 7 [5, 6] = single 7 1 [5, 6] ∧ wholeJob typeKeyExchange [5, 6] = single typeKeyExchange 0 [5, 6] ∧
    (pieceJob 7 ⟨3, 0, 2, [5]⟩).messages = messageBytes 7 2 (fragmentPayload ⟨3, 0, 2, [5]⟩) := by decide +kernel
/-- The sum of `sendMessages` has 32 bits: the biggest messages are not too big. -/
example (cfg : Cfg) {e : W32} (he : Workable e) {job : Job} (h : len32 job.messages = 2 ^ 32 - 1) : tooBig cfg e job = false := by
  simp [tooBig, h, packet_at cfg he, containerHeadersSize]
/-- A call that has returned is not cancelled any more; another is, once the session is closed. -/
example : run ⟨60000, true, false⟩ (.init ⟨60000, true, false⟩) [.establish, .call 7 [1], .go 0 false, .go 0 false, .close, .cancel 0] = none ∧
    (run ⟨60000, true, false⟩ (.init ⟨60000, true, false⟩) [.establish, .call 7 [1], .go 0 false, .close, .cancel 0]).map (·.calls) =
      some [.cancelled] ∧
    run ⟨60000, true, false⟩ (.init ⟨60000, true, false⟩) [.establish, .call 7 [1], .go 0 false, .cancel 0] = none := by decide +kernel

#print axioms C141_reason
#print axioms C141_carried
#print axioms C141_partial
#print axioms C141_accepted
#print axioms C141_violated

end Verif.SizeChange
