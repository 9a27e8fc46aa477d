import Verif.Lemmas.Probes
import Verif.Props.Negotiator
/-! # Property theorems C179: the rounds of the negotiation -/
namespace Verif.Negotiator

variable {ca cb : Cfg} {ta tb : Int}

/-- C179, the sizes of a round: whenever a side begins to send the probes of a round, it sends each of four
different sizes three times; they are in the interval of the round, and its two ends are among them. -/
theorem C179_sizes {n : Net} (ha : ca.Sane) (hb : cb.Sane) (h : NetReachable ca cb ta tb n) {r r' : Round}
    {l : List Nat} {e : PEvent} {s' : State} (hp : n.a.pinger = .top r) (hs : step ca n.a (.pinger e) = .ok s')
    (hl : s'.pinger = .send r' l) :
    r' = r ∧ ∃ p q, r.min < p ∧ p < q ∧ q < r.max ∧
      l = [r.max, r.max, r.max, q, q, q, p, p, p, r.min, r.min, r.min] := by
  obtain ⟨h1, h2, h3, -⟩ := (net_range ha hb h).1.round r (by rw [hp]; rfl)
  have hhi := ha.high
  have hw := width_eq h2 (by omega)
  cases e <;> simp only [step, pingerStep, hp] at hs <;> try (simp only [reduceCtorEq] at hs; done)
  simp only [Outcome.ok.injEq] at hs
  subst hs
  simp only [atTop] at hl
  split at hl
  · simp at hl
  · split at hl
    · simp at hl
    · rename_i hwide
      simp only [Pinger.send.injEq] at hl
      obtain ⟨rfl, rfl⟩ := hl
      rw [hw] at hwide
      have e1 : r.probe 1 = r.min + (1 * (r.max - r.min) + 2) / 3 := by
        simp only [Round.probe, add32, hw]; exact Nat.mod_eq_of_lt (by omega)
      have e2 : r.probe 2 = r.min + (2 * (r.max - r.min) + 2) / 3 := by
        simp only [Round.probe, add32, hw]; exact Nat.mod_eq_of_lt (by omega)
      refine ⟨rfl, r.probe 1, r.probe 2, by omega, by omega, by omega, ?_⟩
      · have h3' : r.probe 3 = r.max := by simp only [Round.probe, add32, hw]; omega
        have h0' : r.probe 0 = r.min := by simp only [Round.probe, add32, hw]; omega
        simp only [Round.probes, h3', h0']

/-- C179, the intervals, as far as it holds: the next round searches in at most a third of the interval (and 2
more), which is shorter, if the greatest size that has made the round trip was not among the greatest
of the round (`nextMax < max`), or the interval reached up to the limit.  Missing: other rounds, see
`C179_violated`. -/
theorem C179_partial {n : Net} (ha : ca.Sane) (hb : cb.Sane) (h : NetReachable ca cb ta tb n) {r r' : Round}
    {f : Found} {e : PEvent} {s' : State} (hp : n.a.pinger = .collect r f)
    (hs : step ca n.a (.pinger e) = .ok s') (hl : s'.pinger = .top r')
    (hc : f.nextMax < r.max ∨ r.max = ca.limit) :
    r'.max - r'.min ≤ (r.max - r.min) / 3 + 2 ∧ r'.max - r'.min < r.max - r.min ∧ r.min < r'.min := by
  obtain ⟨h1, h2, h3, h4, -⟩ := (net_range ha hb h).1.round r (by rw [hp]; rfl)
  obtain ⟨a, b, c, d⟩ := (net_range ha hb h).1.found r f hp
  have hhi := ha.high
  have hw := width_eq h2 (by omega)
  have hS := searching_reachable ha.iter32 ha.iter (net_sides h).1
  have hwide := hS.wide r f hp
  have hfound := hS.found r f hp
  rw [hw] at hwide hfound
  cases e <;> simp only [step, pingerStep, hp] at hs <;> try (simp only [reduceCtorEq] at hs; done)
  · split at hs
    · simp only [Outcome.ok.injEq] at hs; subst hs; simp at hl
    · simp at hs
  · split at hs
    · rename_i hf
      simp only [Outcome.ok.injEq] at hs; subst hs
      have b' := b hf
      simp only [afterRound] at hl
      split at hl <;> try (simp only [reduceCtorEq] at hl; done)
      rename_i r2 hfin
      simp only [Pinger.top.injEq] at hl
      subst hl
      simp only [Round.finish] at hfin
      (repeat' split at hfin) <;> try (simp only [reduceCtorEq] at hfin; done)
      rename_i hn1 hn2 hn3
      simp only [RoundEnd.next.injEq] at hfin
      subst hfin
      have hmax : f.nextMax = f.nextMin + ((r.max - r.min) / 3 + 1) := by
        rcases hfound with rfl | h0 | h0
        · simp [Found.none] at hf
        · omega
        · rw [h0, add32]; omega
      simp only [newMax, add32]
      refine ⟨?_, ?_, by omega⟩
      · split <;> split <;> omega
      · split <;> split <;> omega
    · simp at hs
  · split at hs
    · simp only [Outcome.ok.injEq] at hs; subst hs; simp at hl
    · simp at hs
  · split at hs
    · simp only [Outcome.ok.injEq] at hs; subst hs; simp at hl
    · simp at hs

/-- The second round always searches in a shorter interval than the first. -/
theorem C179_second {n : Net} (ha : ca.Sane) (hb : cb.Sane) (h : NetReachable ca cb ta tb n) {r r' : Round}
    {f : Found} {e : PEvent} {s' : State} (hp : n.a.pinger = .collect r f) (h0 : r.cur = 0)
    (hs : step ca n.a (.pinger e) = .ok s') (hl : s'.pinger = .top r') :
    r.min = 147 ∧ r.max = ca.limit ∧ r'.max - r'.min ≤ (r.max - r.min) / 3 + 2 ∧
      r'.max - r'.min < r.max - r.min := by
  have hr := (searching_reachable ha.iter32 ha.iter (net_sides h).1).first r (by rw [hp]; rfl) h0
  have := C179_partial ha hb h hp hs hl (.inr (by rw [hr]; rfl))
  exact ⟨by rw [hr]; rfl, by rw [hr]; rfl, this.1, this.2.1⟩

/-- Two rounds with default settings on a path that carries 976 bytes and loses nothing. -/
def widening : List (Bool × Act) :=
  [(true, .start true)] ++ fullRound 976 true ⟨0, 147, 1392⟩ ++ fullRound 976 true ⟨1, 562, 979⟩

/-- C179 is violated: on a path that carries 976 bytes and loses nothing, with default settings, the interval of
the third round (840 to 1392) is longer than that of the second (562 to 979), and goes beyond sizes that
have been found to be too big. -/
theorem C179_violated : ∃ n s' f, NetReachable udp udp minute minute n ∧ n.a.pinger = .collect ⟨1, 562, 979⟩ f ∧
    step udp n.a (.pinger .collected) = .ok s' ∧ s'.pinger = .top ⟨2, 840, 1392⟩ ∧ 979 - 562 < 1392 - 840 := by
  refine ⟨netOf (runNet udp udp ⟨.init minute, .init minute⟩ widening.dropLast),
    (netOf (runNet udp udp ⟨.init minute, .init minute⟩ widening)).a, ⟨840, 980, true⟩,
    reachable_net (as := widening.dropLast) (by decide +kernel), by decide +kernel, by decide +kernel,
    by decide +kernel, by decide⟩

/-- C179 is violated as to the number of sizes: in the first round of this execution there are four. -/
theorem C179_violated_sizes : ∃ n, NetReachable udp udp minute minute n ∧
    ∀ sz ∈ [147, 562, 977, 1392], Msg.ping sz 0 ∈ n.a.out :=
  ⟨netOf (runNet udp udp ⟨.init minute, .init minute⟩ widening),
    reachable_net (as := widening) (by decide +kernel), by decide +kernel⟩

/-- The hypotheses of `C179_partial` and `C179_second` are met by the first round of this execution, and
those of `C179_sizes` before it. -/
example : ∃ n s' f, NetReachable udp udp minute minute n ∧ n.a.pinger = .collect ⟨0, 147, 1392⟩ f ∧
    step udp n.a (.pinger .collected) = .ok s' ∧ s'.pinger = .top ⟨1, 562, 979⟩ := by
  let as := [(true, Act.start true)] ++ fullRound 976 true ⟨0, 147, 1392⟩
  exact ⟨netOf (runNet udp udp ⟨.init minute, .init minute⟩ as.dropLast),
    (netOf (runNet udp udp ⟨.init minute, .init minute⟩ as)).a, ⟨562, 978, true⟩,
    reachable_net (as := as.dropLast) (by decide +kernel), by decide +kernel, by decide +kernel, by decide +kernel⟩

example : ∃ n s', NetReachable udp udp minute minute n ∧ n.a.pinger = .top ⟨0, 147, 1392⟩ ∧
    step udp n.a (.pinger .go) = .ok s' ∧
    s'.pinger = .send ⟨0, 147, 1392⟩ [1392, 1392, 1392, 977, 977, 977, 562, 562, 562, 147, 147, 147] :=
  ⟨netOf (runNet udp udp ⟨.init minute, .init minute⟩ [(true, .start true)]),
    (netOf (runNet udp udp ⟨.init minute, .init minute⟩ [(true, .start true), (true, .pinger .go)])).a,
    reachable_net (as := [(true, .start true)]) (by decide +kernel), by decide +kernel, by decide +kernel,
    by decide +kernel⟩

example : udp.Sane := by constructor <;> decide

#print axioms C179_sizes
#print axioms C179_partial
#print axioms C179_second
#print axioms C179_violated
#print axioms C179_violated_sizes

end Verif.Negotiator
