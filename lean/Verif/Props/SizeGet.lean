import Verif.Lemmas.SizeGet
/-!
# Property theorems C152: GetEstablishedPayloadSize returns the result of the negotiation

The full claim (session.go:575-587): each call of `GetEstablishedPayloadSize` that returns has returned the payload size received
as the result of the negotiation (`Right`), and `GetEstablishedPacketSize` that size with the headers.
-/
namespace Verif.SizeGet

/-- C152, the part which holds: as long as nobody has closed the session, all calls that have returned have returned the result
of the negotiation, so all of them the same.  Missing: sessions which are closing or closed, see `C152_violated` and
`C152_violated_closed`. -/
theorem C152_partial {limit : W32} {acts : List Act} {s : State} (hr : run (State.init limit) acts = some s) (ho : Open acts) :
    Right limit acts s := by
  have := run_inv (inv_init limit) hr
  exact (this.clean ho).2.2.2.2

/-- Whatever happens, a call returns nothing else than that, the configured limit, or zero. -/
theorem C152_values {limit : W32} {acts : List Act} {s : State} (hr : run (State.init limit) acts = some s) {v : W32}
    (hv : Call.ret v ∈ s.calls) : v = 0 ∨ v = limit ∨ agreed limit acts = some v := by
  have := run_inv (inv_init limit) hr
  exact this.vals v hv

/-- A call on a started session does not panic. -/
theorem C152_no_panic {limit : W32} {acts : List Act} {s : State} (hr : run (State.init limit) (.start :: acts) = some s) :
    Call.panic ∉ s.calls := by
  simp only [run, step, State.init, if_true] at hr
  exact (run_sound ⟨by simp, by simp⟩ hr).2

/-- A call returns by steps of its own when the session is Established or Closing, and also (if it waits) when it is connected or the
context has ended. -/
theorem C152_returns {s : State} {i : Nat} {zero : Bool} :
    (s.calls[i]? = some .start → s.phase = .established ∨ s.phase = .closing →
      ∃ s', run s [.go i zero, .go i zero] = some s' ∧ s'.calls[i]? = some (.ret s.size)) ∧
    (s.calls[i]? = some .waiting → s.ctx = some true ∨ (s.ctx = some false ∧ s.fin = .done) →
      ∃ s' v, step s (.go i zero) = some s' ∧ s'.calls[i]? = some (.ret v)) := by
  constructor
  · intro h hp
    have hi : i < s.calls.length := (List.getElem?_eq_some_iff.mp h).1
    have hc : callStep s zero .start = some .known := by
      rcases hp with e | e <;> simp only [callStep, e]
    have h1 : step s (.go i zero) = some { s with calls := s.calls.set i .known } := by simp only [step, h, hc]
    have h2 : step { s with calls := s.calls.set i .known } (.go i zero) = some { s with calls := s.calls.set i (.ret s.size) } := by
      simp only [step, List.getElem?_set_self hi, callStep, List.set_set]
    exact ⟨{ s with calls := s.calls.set i (.ret s.size) }, by simp only [run, h1, h2], by simp only [List.getElem?_set_self hi]⟩
  · intro h hp
    have hi : i < s.calls.length := (List.getElem?_eq_some_iff.mp h).1
    have hc : ∃ v, callStep s zero .waiting = some (.ret v) := by
      rcases hp with e | ⟨e, e'⟩
      · simp only [callStep, e]; split <;> exact ⟨_, rfl⟩
      · simp only [callStep, e, e', if_true]; exact ⟨_, rfl⟩
    obtain ⟨v, hc⟩ := hc
    exact ⟨_, v, by simp only [step, h, hc]; rfl, by simp only [List.getElem?_set_self hi]⟩

/-- Before there is a result, a call on a session that nobody closes does not return. -/
theorem C152_waits {limit : W32} {acts : List Act} {s : State} (hr : run (State.init limit) acts = some s) (ho : Open acts)
    (hn : agreed limit acts = none) (v : W32) : Call.ret v ∉ s.calls := by
  intro hv
  have := C152_partial hr ho v hv
  rw [hn] at this; cases this

/-- The packet size is the payload size and 53 bytes of headers. -/
theorem C152_packet (v : W32) (h : v.toNat + 53 < 2 ^ 32) : (packetSize v).toNat = v.toNat + 53 := by
  have e1 : (BitVec.ofNat 32 Headers.containerHeadersSize).toNat = 44 := rfl
  have e2 : (BitVec.ofNat 32 Headers.messageHeadersSize).toNat = 9 := rfl
  simp only [packetSize, BitVec.toNat_add, e1, e2]
  omega

/-- C152 is violated, for every limit: `Close` during the negotiation makes the methods return the configured limit, which nobody has
agreed on. -/
theorem C152_violated (limit : W32) :
    ∃ acts s, run (State.init limit) acts = some s ∧ Call.ret limit ∈ s.calls ∧ ¬ Right limit acts s := by
  refine ⟨[.start, .exchange, .exchanged, .close, .get, .go 0 false, .go 0 false],
    ⟨.closing, some false, limit, .no, [.ret limit]⟩, by simp [run, step, State.init, State.set, callStep], by simp, fun h => ?_⟩
  have := h limit (by simp)
  simp [agreed, found, List.findSome?] at this

/-- C152 is violated, for every limit and size found: on a closed session one call returns the result and another one zero, and
`GetEstablishedPacketSize` 53. -/
theorem C152_violated_closed (limit e : W32) (he : e ≠ 0) :
    ∃ acts s, run (State.init limit) acts = some s ∧ Call.ret e ∈ s.calls ∧ Call.ret 0 ∈ s.calls ∧ (packetSize 0).toNat = 53 ∧
      agreed limit acts = some e ∧ ¬ Right limit acts s := by
  refine ⟨[.start, .exchange, .exchanged, .setSize e, .connect, .connected, .close, .cancel, .closed,
    .get, .get, .go 0 false, .go 0 false, .go 1 true, .go 1 true],
    ⟨.closed, some true, e, .done, [.ret e, .ret 0]⟩, by simp [run, step, State.init, State.set, callStep], by simp, by simp, rfl,
    by simp [agreed, found, List.findSome?], fun h => ?_⟩
  have := h 0 (by simp)
  simp [agreed, found, List.findSome?] at this
  exact he this

/-- Before `Start` the methods panic. -/
theorem C152_violated_new (limit : W32) : ∃ acts s, run (State.init limit) acts = some s ∧ Act.start ∉ acts ∧ Call.panic ∈ s.calls :=
  ⟨[.get, .go 0 false, .go 0 false], ⟨.new, none, limit, .no, [.panic]⟩, by simp [run, step, State.init, State.set, callStep], by simp, by simp⟩

/-! ## Examples -/

/-- A negotiation which finds 500: a call from before it waits, and returns 500, also if the session is paused. -/
example :
    (run (State.init 1000) [.start, .exchange, .get, .go 0 false, .exchanged, .setSize 500]).bind (step · (.go 0 false)) = none ∧
    (run (State.init 1000) [.start, .exchange, .get, .go 0 false, .exchanged, .setSize 500, .connect, .get, .go 1 false, .connected,
      .pause true, .get, .go 0 false, .go 1 false, .go 2 false, .go 2 false]).map (fun s => (s.calls, s.phase)) =
      some ([.ret 500, .ret 500, .ret 500], .paused) ∧
    agreed 1000 [.start, .exchange, .get, .go 0 false, .exchanged, .setSize 500] = some 500 ∧
    packetSize 500 = 553 := by
  decide +kernel

/-- Without a negotiation the limit is the result. -/
example :
    (run (State.init 1000) [.start, .exchange, .exchanged, .get, .connect, .go 0 true, .go 0 true]).map (·.calls) = some [.ret 1000] ∧
    agreed 1000 [.start, .exchange, .exchanged, .get, .connect, .go 0 true, .go 0 true] = some 1000 ∧
    agreed 1000 [.start, .exchange, .exchanged, .get] = none := by
  decide +kernel

/-- A session which is closed before it is connected: zero; the context ends during a pause: zero or the size. -/
example :
    (run (State.init 1000) [.start, .exchange, .close, .cancel, .closed, .get, .go 0 false, .go 0 false]).map (·.calls) = some [.ret 0] ∧
    (run (State.init 1000) [.start, .exchange, .exchanged, .connect, .connected, .pause true, .cancel, .get, .get, .go 0 false,
      .go 0 false, .go 1 false, .go 1 true]).map (·.calls) = some [.ret 1000, .ret 0] ∧
    (run (State.init 1000) [.start, .exchange, .exchanged, .close, .connect, .connected]).map (fun s => (s.phase, s.fin)) =
      some (.closing, .done) := by
  decide +kernel

#print axioms C152_partial
#print axioms C152_values
#print axioms C152_no_panic
#print axioms C152_returns
#print axioms C152_waits
#print axioms C152_packet
#print axioms C152_violated
#print axioms C152_violated_closed
#print axioms C152_violated_new

end Verif.SizeGet
