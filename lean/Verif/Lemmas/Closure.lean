import Verif.Model.Closure
/-! Invariants of the goroutines of a session. -/
namespace Verif.Closure

theorem liveCount_append (a b : List Msgr) : liveCount (a ++ b) = liveCount a + liveCount b := by
  induction a with
  | nil => simp [liveCount]
  | cons m a ih => simp only [List.cons_append, liveCount, ih]; omega

theorem liveCount_map (a : List Msgr) : liveCount (a.map Msgr.close) = liveCount a := by
  induction a with
  | nil => rfl
  | cons m a ih => simp only [List.map_cons, liveCount, ih]; rfl

theorem liveCount_modify (a : List Msgr) (i : Nat) : liveCount (a.modify i Msgr.close) = liveCount a := by
  induction a generalizing i with
  | nil => cases i <;> rfl
  | cons m a ih =>
    cases i with
    | zero => rfl
    | succ i => simp only [List.modify_succ_cons, liveCount, ih]

theorem liveCount_set (a : List Msgr) (i : Nat) (m : Msgr) (h : a[i]? = some m) (hw : m.waits = true) :
    liveCount (a.set i { m with waits := false }) + 1 = liveCount a := by
  induction a generalizing i with
  | nil => simp at h
  | cons x a ih =>
    cases i with
    | zero =>
      simp only [List.getElem?_cons_zero, Option.some.injEq] at h
      subst h
      simp only [List.set_cons_zero, liveCount, hw]; simp; omega
    | succ i =>
      simp only [List.getElem?_cons_succ] at h
      have := ih i h
      simp only [List.set_cons_succ, liveCount]; omega

theorem liveCount_zero (a : List Msgr) (h : liveCount a = 0) : ∀ m ∈ a, m.waits = false := by
  induction a with
  | nil => simp
  | cons x a ih =>
    simp only [liveCount] at h
    intro m hm
    rcases List.mem_cons.mp hm with rfl | hm
    · cases hw : m.waits with
      | false => rfl
      | true => rw [hw] at h; simp at h
    · exact ih (by omega) m hm

/-- What holds in every state. -/
structure Inv (s : State) : Prop where
  wg : s.wg = liveCount s.msgrs + s.kxWaiter.live + s.reader.live + s.closer.live + s.delayed.live
  kxWg : s.kxWg = s.kxLoop.live + s.answers
  early : s.starting = .no ∨ s.starting = .context ∨ s.starting = .negotiator ∨ s.starting = .exchanger → s.reader = .off
  noCloser : s.starting ≠ .returned → s.closer = .off
  reader : s.starting = .reader ∨ s.starting = .returned → s.reader ≠ .off
  closer : s.starting = .returned → s.closer ≠ .off
  kxOff : s.starting = .no ∨ s.starting = .context ∨ s.starting = .negotiator → s.kxWaiter = .off
  kx : s.kxWaiter = .off ↔ s.kxLoop = .off
  kxOver : s.kxWaiter = .over → s.kxLoop = .over
  ctx : s.reader = .leaving ∨ s.reader = .closed ∨ s.reader = .over → s.ctx = true
  closed : s.reader = .closed ∨ s.reader = .over → s.closed = true
  closing : s.closed = true → s.closing = true

theorem inv_init : Inv State.init := by
  constructor <;> simp [State.init, liveCount, Th.live, Reader.live]

theorem inv_log {s : State} (e : Ev) (h : Inv s) : Inv (s.log e) := by
  unfold State.log; split
  · exact ⟨h.wg, h.kxWg, h.early, h.noCloser, h.reader, h.closer, h.kxOff, h.kx, h.kxOver, h.ctx, h.closed, h.closing⟩
  · exact h

theorem inv_logIf {s : State} (b : Bool) (e : Ev) (h : Inv s) : Inv (s.logIf b e) := by
  unfold State.logIf; split
  · exact inv_log e h
  · exact h

theorem inv_start {s s' : State} (h : Inv s) (hs : startStep s = some s') : Inv s' := by
  obtain ⟨h1, h2, h3, h4, h5, h6, h7, h8, h9, h10, h11, h12⟩ := h
  unfold startStep at hs
  split at hs
  · next he =>
    cases hs
    constructor <;> simp_all
  · next he =>
    split at hs
    · cases hs
    · cases hs
      constructor <;> simp_all [liveCount_append, liveCount] <;> omega
  · next he =>
    split at hs
    · cases hs
      constructor <;> simp_all
    · split at hs
      · cases hs
      · cases hs
        constructor <;> simp_all [liveCount_append, liveCount, Th.live] <;> omega
  · next he =>
    cases hs
    constructor <;> simp_all [Reader.live] <;> omega
  · next he =>
    cases hs
    constructor <;> simp_all [Th.live] <;> omega
  · cases hs

theorem inv_step {s s' : State} {a : Act} (h : Inv s) (hs : step s a = some s') : Inv s' := by
  cases a with
  | start => exact inv_start h hs
  | messengerGone i =>
    simp only [step] at hs
    split at hs
    · next m hm =>
      split at hs
      · next hc =>
        cases hs
        have := liveCount_set _ _ _ hm hc.2
        obtain ⟨h1, h2, h3, h4, h5, h6, h7, h8, h9, h10, h11, h12⟩ := h
        constructor <;> first | assumption | (simp only; omega)
      · cases hs
    · cases hs
  | newMessenger =>
    simp only [step] at hs
    split at hs
    · cases hs; exact h
    · cases hs
      obtain ⟨h1, h2, h3, h4, h5, h6, h7, h8, h9, h10, h11, h12⟩ := h
      constructor <;> first | assumption | (simp [liveCount_append, liveCount]; omega)
  | closeMessenger i =>
    cases hs
    obtain ⟨h1, h2, h3, h4, h5, h6, h7, h8, h9, h10, h11, h12⟩ := h
    constructor <;> first | assumption | (simp [liveCount_modify]; omega)
  | setClosed =>
    simp only [step] at hs
    split at hs
    · cases hs
      obtain ⟨h1, h2, h3, h4, h5, h6, h7, h8, h9, h10, h11, h12⟩ := h
      constructor <;> simp_all [liveCount_map, Reader.live]
    · cases hs
  | kxWaiterGone =>
    simp only [step] at hs
    split at hs
    · next hc =>
      cases hs
      obtain ⟨h1, h2, h3, h4, h5, h6, h7, h8, h9, h10, h11, h12⟩ := h
      have hl : s.kxLoop = .over := by
        cases hk : s.kxLoop with
        | over => rfl
        | off => rw [h8.mpr hk] at hc; exact absurd hc.1 (by decide)
        | run => rw [hk] at h2; have : s.kxWg = 1 + s.answers := h2; omega
      constructor <;> first | assumption | (simp_all [Th.live, Reader.live]; try omega)
    · cases hs
  | _ =>
    simp only [step] at hs
    (try split at hs) <;> (try split at hs) <;> cases hs <;> (try apply inv_log) <;> (try apply inv_logIf) <;>
      obtain ⟨h1, h2, h3, h4, h5, h6, h7, h8, h9, h10, h11, h12⟩ := h <;>
      constructor <;> first | assumption | (simp_all [Th.live, Reader.live]; try omega)

theorem inv_reachable {s : State} (h : Reachable s) : Inv s := by
  induction h with
  | init => exact inv_init
  | step a _ hs ih => exact inv_step ih hs

end Verif.Closure
