import Verif.Lemmas.NegotiatorRounds
import Verif.Lemmas.Headers
/-!
# Negotiation: C53 - C56, C62, C75 - C79
-/
namespace Verif.Negotiator

variable {cfg ca cb : Cfg} {t ta tb : Int}

/-! ### Examples and witnesses -/

def isOk {α : Type} (r : Outcome Unit α) : Bool := match r with | .ok _ => true | _ => false
def stateOf (r : Outcome Unit State) : State := match r with | .ok s => s | _ => State.init 0
def netOf (r : Outcome Unit Net) : Net := match r with | .ok n => n | _ => ⟨State.init 0, State.init 0⟩

theorem stateOf_eq {r : Outcome Unit State} (h : isOk r = true) : r = .ok (stateOf r) := by
  cases r <;> simp_all [isOk, stateOf]

theorem netOf_eq {r : Outcome Unit Net} (h : isOk r = true) : r = .ok (netOf r) := by
  cases r <;> simp_all [isOk, netOf]

theorem reachable_run {as : List Act} (h : isOk (runActs cfg (State.init t) as) = true) :
    Reachable cfg t (stateOf (runActs cfg (State.init t) as)) := runActs_reachable as .init (stateOf_eq h)

theorem reachable_net {as : List (Bool × Act)} (h : isOk (runNet ca cb ⟨.init ta, .init tb⟩ as) = true) :
    NetReachable ca cb ta tb (netOf (runNet ca cb ⟨.init ta, .init tb⟩ as)) := runNet_reachable as .init (netOf_eq h)

/-- The default limit on UDP (message.go:34, 46: `(1500 - 48 - 44 - 9) &^ 15`) and the default options. -/
def udp : Cfg := ⟨1392, 4⟩
/-- `DefaultNegotiatorReadTimeout`: a minute. -/
def minute : Int := 60000000000

/-- The first round for a limit of 1500: each of the four sizes three times, the greatest first. -/
example : (Round.first 1500).probes = [1500, 1500, 1500, 1049, 1049, 1049, 598, 598, 598, 147, 147, 147] := by decide

/-- The steps in which a side sends all probes of a round. -/
def sendRound (r : Round) : List Act :=
  .pinger .go :: r.probes.map (fun _ => .pinger (.write .ok)) ++ [.pinger .go]

/-- Round `r` of side `who` on a path that carries messages of up to `M` bytes: all probes are sent, those that fit are
answered, all answers are received. -/
def fullRound (M : Nat) (who : Bool) (r : Round) : List (Bool × Act) :=
  let ps := r.probes.filter (· ≤ M)
  (sendRound r).map (who, ·) ++ ps.map (fun p => (!who, .deliver (.ping p r.cur) .ok)) ++
    ps.flatMap (fun p => [(who, .deliver (.pong p r.cur) .ok), (who, .reader .ok), (who, .reader .ok)]) ++
    ps.map (fun _ => (who, .pinger (.recv true))) ++ [(who, .pinger .collected)]

/-- What a side learns in such a round. -/
def learn (M : Nat) (r : Round) : Found :=
  (r.probes.filter (· ≤ M)).foldl (fun f p => f.add r p r.cur true) .none

/-- The rounds on such a path. -/
def roundsOn (cfg : Cfg) (M : Nat) : Nat → Round → List Round
  | 0, _ => []
  | n + 1, r =>
    match r.finish cfg.limit cfg.maxIter (learn M r) with
    | .next r' => r :: roundsOn cfg M n r'
    | _ => [r]

/-- Both sides probe at the same time. -/
def probing (cfg : Cfg) (M : Nat) : List (Bool × Act) :=
  let rs := roundsOn cfg M 10 (.first cfg.limit)
  [(true, .start true), (false, .start true)] ++ rs.flatMap (fun r => fullRound M true r ++ fullRound M false r)

/-- Everything else that was sent arrives as well. -/
def controlsOf (n : Net) : List (Bool × Act) :=
  (n.a.out.filter fun m => !m.isPing).flatMap (fun m => match m with
    | .control _ _ => [(false, Act.deliver m .ok)] | _ => []) ++
  (n.b.out.filter fun m => !m.isPing).flatMap (fun m => match m with
    | .control _ _ => [(true, Act.deliver m .ok)] | _ => [])

/-- A negotiation with default settings, on a path that carries everything: the rounds, three control messages on each
side, the delivery of one of them, and the finalizers. -/
def goodRun : List (Bool × Act) :=
  probing udp 2000 ++
  [true, false].flatMap (fun w => [(w, .pinger (.write .ok)), (w, .pinger (.write .ok)), (w, .pinger (.write .ok)),
    (w, .pinger .go), (w, .fin .fromPinger)]) ++
  [true, false].flatMap (fun w => [(w, .deliver (.control 1392 true) .ok), (w, .fin .fromReader), (w, .fin .go)])

def goodNet : Net := netOf (runNet udp udp ⟨.init minute, .init minute⟩ goodRun)

theorem good_ok : isOk (runNet udp udp ⟨.init minute, .init minute⟩ goodRun) = true := by decide +kernel

theorem udp_sane : udp.Sane := ⟨by decide, by decide, by decide, by decide⟩

/-! ### C53 -/

/-- A message of that size went from `s` to `o` and back, or no message at all is needed. -/
def RoundTrip (s o : State) (size : Nat) : Prop := size = 0 ∨ ∃ it, Msg.ping size it ∈ s.out ∧ .pong size it ∈ o.out

/-- C53: between two sides that follow the protocol, over a network that loses, repeats and reorders messages, the
negotiated size is at most the size of a message that made the round trip from this side, at most the size of a
message that made the round trip from the other side, and at most both limits. -/
theorem C53_safe_partial {n : Net} {e : Nat} (ha : ca.Sane) (hb : cb.Sane) (h : NetReachable ca cb ta tb n)
    (he : n.a.est = some e) :
    (∃ x, e ≤ x ∧ RoundTrip n.a n.b x) ∧ (∃ x, e ≤ x ∧ RoundTrip n.b n.a x) ∧ e ≤ ca.limit ∧ e ≤ cb.limit := by
  obtain ⟨c1, c2⟩ := net_cross h
  obtain ⟨r1, r2⟩ := net_range ha hb h
  obtain ⟨e1, e2⟩ := c1.est e he
  refine ⟨⟨_, e1, c1.trip⟩, ⟨_, e2, c2.trip⟩, ?_, ?_⟩
  · rcases r1.localRTT with h0 | ⟨it, h0⟩
    · omega
    · have := (r1.sizes _ _ h0).2; omega
  · rcases r2.localRTT with h0 | ⟨it, h0⟩
    · omega
    · have := (r2.sizes _ _ h0).2; omega

example : NetReachable udp udp minute minute goodNet ∧ goodNet.a.est = some 1392 ∧ goodNet.b.est = some 1392 ∧
    goodNet.a.okCalls = 1 ∧ goodNet.b.okCalls = 1 := ⟨reachable_net good_ok, by decide +kernel⟩

/-- The same for the other side: the system is symmetric. -/
theorem C53_safe_other_partial {n : Net} {e : Nat} (ha : ca.Sane) (hb : cb.Sane) (h : NetReachable ca cb ta tb n)
    (he : n.b.est = some e) :
    (∃ x, e ≤ x ∧ RoundTrip n.b n.a x) ∧ (∃ x, e ≤ x ∧ RoundTrip n.a n.b x) ∧ e ≤ cb.limit ∧ e ≤ ca.limit := by
  obtain ⟨c1, c2⟩ := net_cross h
  obtain ⟨r1, r2⟩ := net_range ha hb h
  obtain ⟨e1, e2⟩ := c2.est e he
  refine ⟨⟨_, e1, c2.trip⟩, ⟨_, e2, c1.trip⟩, ?_, ?_⟩
  · rcases r2.localRTT with h0 | ⟨it, h0⟩
    · omega
    · have := (r2.sizes _ _ h0).2; omega
  · rcases r1.localRTT with h0 | ⟨it, h0⟩
    · omega
    · have := (r1.sizes _ _ h0).2; omega

/-- C53 is violated for a peer that does not follow the protocol: a pong that answers no ping is counted, also if it is
larger than the limit. -/
theorem C53_violated : ∃ s, Reachable ⟨1500, 4⟩ minute s ∧ s.est = some 2000 ∧ ∀ sz it, Msg.ping sz it ∈ s.out → sz ≤ 1500 := by
  let as : List Act := .start true :: sendRound (.first 1500) ++
    [.deliver (.pong 2000 0) .ok, .reader .ok, .reader .ok, .pinger .readTimeout, .fin .fromPinger,
     .deliver (.control 2000 true) .ok, .fin .fromReader, .fin .go]
  refine ⟨_, reachable_run (as := as) (by decide +kernel), by decide +kernel, ?_⟩
  have : ∀ m ∈ (stateOf (runActs ⟨1500, 4⟩ (State.init minute) as)).out,
      (match m with | .ping sz _ => decide (sz ≤ 1500) | _ => true) = true := by decide +kernel
  intro sz it hm
  simpa using this _ hm

theorem decode_cons (sha : Bytes → Bytes) (x : Byte) (b : Bytes) : decode sha (x :: b) =
    if x = 0 then
      if (x :: b).length < 6 then .junk
      else .control (getLE (((x :: b).drop 1).take 4)) (((x :: b).getD 5 0) &&& 1 ≠ 0)
    else if x = 1 then .ping (x :: b).length (iterOf (x :: b))
    else if x = 2 then
      if (x :: b).length < 69 then .junk
      else if ((x :: b).drop 1).take 64 ≠ sha ((x :: b).drop 65) then .junk
      else .pong (x :: b).length (iterOf (x :: b))
    else .junk := rfl

theorem decode_ping_pong (sha : Bytes → Bytes) (tail sum : Bytes) (it : Nat) (hs : sum.length = 64)
    (hl : 4 ≤ tail.length) (hsum : sum = sha tail) (hit : tail.take 4 = putLE 4 it) (hit32 : it < 2 ^ 32) :
    decode sha (1 :: sum ++ tail) = .ping (tail.length + 65) it ∧
    decode sha (2 :: sum ++ tail) = .pong (tail.length + 65) it := by
  have hd : ∀ x : Byte, ((x :: (sum ++ tail)).drop 65) = tail := by
    intro x
    rw [List.drop_succ_cons, List.drop_left' hs]
  have hiter : ∀ x : Byte, iterOf (x :: (sum ++ tail)) = it := by
    intro x
    rw [iterOf, hd, hit, getLE_putLE, Nat.mod_eq_of_lt (by omega)]
  have hlen : ∀ x : Byte, (x :: (sum ++ tail)).length = tail.length + 65 := by
    intro x
    rw [List.length_cons, List.length_append]; omega
  rw [List.cons_append, List.cons_append]
  constructor
  · rw [decode_cons, if_neg (by decide), if_pos rfl, hiter, hlen]
  · rw [decode_cons, if_neg (by decide), if_neg (by decide), if_pos rfl, hiter, hlen, hd, if_neg (by omega), if_neg]
    rw [List.drop_succ_cons, List.drop_zero, List.take_append_of_le_length (by omega),
      List.take_of_length_le (by omega), hsum]
    simp

/-- C53, bytes: an answered probe that arrives unchanged counts with its own size and round. -/
theorem C53_echo (sha : Bytes → Bytes) (hsha : ∀ x, (sha x).length = 64) (it size : Nat) (hs : 69 ≤ size)
    (hit : it < 2 ^ 32) : ∃ b, pingBytes sha it size = .ok b ∧ b.length = size ∧ decode sha b = .ping size it ∧
      decode sha (pongBytes b) = .pong size it := by
  have h4 : (putLE 4 it).length = 4 := putLE_length _ _
  refine ⟨1 :: (sha (putLE 4 it ++ (List.range (size - 69)).map fun i => BitVec.ofNat 8 i)).take 64 ++
    (putLE 4 it ++ (List.range (size - 69)).map fun i => BitVec.ofNat 8 i), ?_, ?_, ?_, ?_⟩
  · simp only [pingBytes]; rw [if_neg (by omega)]
  · simp [hsha, h4]; omega
  all_goals
    have := decode_ping_pong sha (putLE 4 it ++ (List.range (size - 69)).map fun i => BitVec.ofNat 8 i)
      (sha (putLE 4 it ++ (List.range (size - 69)).map fun i => BitVec.ofNat 8 i)) it (hsha _)
      (by simp [h4]) rfl (by rw [List.take_append_of_le_length (by omega), List.take_of_length_le (by omega)]) hit
    have hl : (putLE 4 it ++ (List.range (size - 69)).map fun i => BitVec.ofNat 8 i).length + 65 = size := by
      simp [h4]; omega
    rw [hl] at this
    rw [List.take_of_length_le (by rw [hsha]; exact Nat.le_refl _)]
  · exact this.1
  · rw [pongBytes, List.cons_append, List.set_cons_zero]
    exact this.2

/-- C53, bytes: a probe shorter than its header is a crash, not a message. -/
theorem C53_short (sha : Bytes → Bytes) (it size : Nat) (hs : size < 69) : pingBytes sha it size = .panic := by
  rw [pingBytes, if_pos hs]

/-- C53, bytes: a message counts as a pong of some size only if it has that size and its checksum matches. -/
theorem C53_checksum (sha : Bytes → Bytes) (b : Bytes) (size it : Nat) (h : decode sha b = .pong size it) :
    b.length = size ∧ 69 ≤ size ∧ b.head? = some 2 ∧ (b.drop 1).take 64 = sha (b.drop 65) := by
  cases b with
  | nil => simp [decode] at h
  | cons x b =>
    rw [decode_cons] at h
    (repeat' split at h) <;> try (simp only [reduceCtorEq] at h; done)
    rename_i h2 hlen hsum
    simp only [Msg.pong.injEq] at h
    subst h2
    exact ⟨h.1, by omega, rfl, by simpa using hsum⟩

/-- C53, bytes: a control message carries the sender's result and its flag. -/
theorem C53_control (sha : Bytes → Bytes) (l : Nat) (e : Bool) (hl : l < 2 ^ 32) :
    decode sha (controlBytes l e) = .control l e := by
  have h4 : (putLE 4 l).length = 4 := putLE_length _ _
  rw [controlBytes, List.cons_append, decode_cons, if_pos rfl, if_neg (by simp [h4])]
  have h1 : ((0 :: (putLE 4 l ++ [if e then 1 else 0]) : Bytes).drop 1).take 4 = putLE 4 l := by
    rw [List.drop_succ_cons, List.drop_zero, List.take_append_of_le_length (by omega), List.take_of_length_le (by omega)]
  have h2 : (0 :: (putLE 4 l ++ [if e then 1 else 0]) : Bytes).getD 5 0 = if e then 1 else 0 := by
    rw [List.getD_cons_succ, List.getD_eq_getElem?_getD, List.getElem?_append_right (by omega), h4]
    rfl
  rw [h1, h2, getLE_putLE, Nat.mod_eq_of_lt (by omega)]
  cases e <;> simp

example : decode (fun _ => List.replicate 64 7) (controlBytes 1392 true) = .control 1392 true := by decide +kernel

/-! ### C54 -/

/-- C54, whatever the other side sends: rounds are numbered below `MaxIterations` and at most 12 probes are sent per
round. -/
theorem C54_rounds {s : State} (h0 : 0 < cfg.maxIter) (hm : cfg.maxIter < 2 ^ 32) (h : Reachable cfg t s) :
    (∀ r, s.pinger.round = some r → r.cur < cfg.maxIter) ∧ (∀ sz it, Msg.ping sz it ∈ s.out → it < cfg.maxIter) ∧
    s.pings ≤ 12 * cfg.maxIter := by
  have := count_reachable hm h0 h
  exact ⟨this.round, this.iters, this.all⟩

/-- C54: between two sides that follow the protocol all probes are between 147 and the limit, and so is the interval
of the search. -/
theorem C54_range_partial {n : Net} (ha : ca.Sane) (hb : cb.Sane) (h : NetReachable ca cb ta tb n) :
    (∀ sz it, Msg.ping sz it ∈ n.a.out → 147 ≤ sz ∧ sz ≤ ca.limit) ∧
    (∀ r, n.a.pinger.round = some r → 147 ≤ r.min ∧ r.min ≤ r.max ∧ r.max ≤ ca.limit) ∧
    (∀ sz it, Msg.ping sz it ∈ n.b.out → 147 ≤ sz ∧ sz ≤ cb.limit) ∧
    (∀ r, n.b.pinger.round = some r → 147 ≤ r.min ∧ r.min ≤ r.max ∧ r.max ≤ cb.limit) := by
  obtain ⟨r1, r2⟩ := net_range ha hb h
  exact ⟨r1.sizes, fun r hr => ⟨(r1.round r hr).1, (r1.round r hr).2.1, (r1.round r hr).2.2.1⟩,
    r2.sizes, fun r hr => ⟨(r2.round r hr).1, (r2.round r hr).2.1, (r2.round r hr).2.2.1⟩⟩

/-- A path for messages of up to 1000 bytes: the interval of the second round. -/
example : (netOf (runNet udp udp ⟨.init minute, .init minute⟩ ([(true, .start true)] ++
    fullRound 1000 true (.first 1392)))).a.pinger = .top ⟨1, 977, 1392⟩ := by decide +kernel

/-- How much the ping sender has still to do, apart from receiving. -/
def work (maxIter : Nat) : Pinger → Nat
  | .off => 0
  | .top r => 20 * (maxIter - r.cur) + 6
  | .send r l => 20 * (maxIter - r.cur) - 9 + l.length
  | .collect r _ => 20 * (maxIter - r.cur) - 10
  | .control k => k + 2
  | .stage => 1
  | .done => 0

/-- C54, the search ends: every step of the ping sender except receiving a pong, and its hand-over to the finalizer, lets
it come nearer to its end, and no other step of a started negotiator takes it away from there. -/
theorem C54_terminates {s s' : State} {a : Act} (h0 : 0 < cfg.maxIter) (hm : cfg.maxIter < 2 ^ 32) (h : Reachable cfg t s)
    (hst : s.started = true) (hs : step cfg s a = .ok s') :
    work cfg.maxIter s'.pinger ≤ work cfg.maxIter s.pinger ∧
    ((∃ e, a = .pinger e ∧ ∀ b, e ≠ .recv b) → work cfg.maxIter s'.pinger < work cfg.maxIter s.pinger) := by
  have hc := count_reachable hm h0 h
  have hround := hc.round
  by_cases ha : a = .closer
  · subst ha
    rw [(closer_effect hs).1]
    exact ⟨Nat.le_refl _, by rintro ⟨e, he, -⟩; simp at he⟩
  · cases a with
    | pinger e =>
      simp only [step, pingerStep] at hs
      split at hs
      · rename_i r hp
        have := hround r (by rw [hp]; rfl)
        simp only [Outcome.ok.injEq] at hs
        subst hs
        simp only [atTop, hp]
        have hl : r.probes.length = 12 := rfl
        (repeat' split) <;> simp only [work] <;> omega
      · rename_i r p ps w hp
        have := hround r (by rw [hp]; rfl)
        (repeat' split at hs) <;> (try (simp only [reduceCtorEq] at hs; done)) <;> simp only [Outcome.ok.injEq] at hs <;>
          subst hs <;> simp only [hp, work, List.length_cons] <;> omega
      · rename_i r hp
        have := hround r (by rw [hp]; rfl)
        simp only [Outcome.ok.injEq] at hs
        subst hs
        simp only [hp, work, List.length_nil]
        omega
      · rename_i r f moved hp
        split at hs <;> try (simp only [reduceCtorEq] at hs; done)
        simp only [Outcome.ok.injEq] at hs
        subst hs
        simp only [hp, work]
        refine ⟨Nat.le_refl _, ?_⟩
        rintro ⟨e, he, hb⟩
        simp only [Act.pinger.injEq] at he
        exact absurd he.symm (hb moved)
      · rename_i r f hp
        have := hround r (by rw [hp]; rfl)
        split at hs <;> try (simp only [reduceCtorEq] at hs; done)
        simp only [Outcome.ok.injEq] at hs
        subst hs
        simp only [afterRound, hp]
        split
        · simp only [work]; omega
        · simp only [work]; omega
        · rename_i r' hfin
          have := finish_cur hm this hfin
          simp only [work]; omega
      · rename_i r f hp
        have := hround r (by rw [hp]; rfl)
        split at hs <;> try (simp only [reduceCtorEq] at hs; done)
        simp only [Outcome.ok.injEq] at hs
        subst hs
        simp only [hp, work]; omega
      · rename_i r f hp
        have := hround r (by rw [hp]; rfl)
        split at hs <;> try (simp only [reduceCtorEq] at hs; done)
        simp only [Outcome.ok.injEq] at hs
        subst hs
        simp only [hp, work]; omega
      · rename_i k w hp
        simp only [Outcome.ok.injEq] at hs
        subst hs
        simp only [hp, work]; omega
      · rename_i hp
        simp only [Outcome.ok.injEq] at hs
        subst hs
        simp only [hp, work]; omega
      · simp only [reduceCtorEq] at hs
    | _ =>
      simp only [step, start, finStep, deliver, readerStep, ne_eq, not_true] at hs ha
      all_goals
        (repeat' split at hs) <;> (try (simp at hs; done)) <;> simp only [Outcome.ok.injEq] at hs <;> subst hs <;>
          simp_all [work]

/-- C54: until its end the ping sender can go on by itself, when it is not waiting for pongs; and when it is, a time-out
of its own will end the waiting. -/
theorem C54_goes_on {n : Net} (ha : ca.Sane) (hb : cb.Sane) (h : NetReachable ca cb ta tb n) (ht : 0 < ta) (ht' : ta < infinite)
    (hoff : n.a.pinger ≠ .off) (hst : n.a.pinger ≠ .stage) (hd : n.a.pinger ≠ .done) :
    ∃ e s', (∀ b, e ≠ .recv b) ∧ step ca n.a (.pinger e) = .ok s' := by
  obtain ⟨r1, -⟩ := net_range ha hb h
  have hto := timeouts_reachable (net_sides h).1
  cases hp : n.a.pinger with
  | off => exact absurd hp hoff
  | stage => exact absurd hp hst
  | done => exact absurd hp hd
  | top r => exact ⟨.go, _, by simp, by simp only [step, pingerStep, hp]; rfl⟩
  | send r l =>
    cases l with
    | nil => exact ⟨.go, _, by simp, by simp only [step, pingerStep, hp]; rfl⟩
    | cons p ps =>
      have h1 := r1.todo r _ hp p (by simp)
      have h2 := r1.round r (by rw [hp]; rfl)
      by_cases hctx : n.a.ctxDone = true
      · exact ⟨.write .ok, { n.a with pinger := .stage }, by simp, by simp only [step, pingerStep, hp]; rw [if_pos hctx]⟩
      · have : step ca n.a (.pinger (.write .ok)) = .ok { n.a with
            pinger := .send r ps
            out := n.a.out ++ sent .ok (.ping p r.cur)
            errCalls := n.a.errCalls + failedPing .ok } := by
          simp only [step, pingerStep, hp]
          rw [if_neg hctx, if_neg (by omega)]
        exact ⟨.write .ok, _, by simp, this⟩
  | collect r f =>
    have := (hto.cur r f hp).1 ht
    refine ⟨.readTimeout, { n.a with pinger := .stage, errCalls := n.a.errCalls + 1 }, by simp, ?_⟩
    simp only [step, pingerStep, hp]
    rw [if_pos (by omega)]
  | control k =>
    cases k with
    | zero => exact ⟨.go, _, by simp, by simp only [step, pingerStep, hp]; rfl⟩
    | succ k => exact ⟨.write .ok, _, by simp, by simp only [step, pingerStep, hp]; rfl⟩

/-- C54 is violated for a peer that does not follow the protocol: a pong larger than the limit turns the interval
around, and the next probe is larger than 2^31. -/
theorem C54_violated : ∃ s, Reachable ⟨1500, 4⟩ minute s ∧ ∃ r p ps, s.pinger = .send r (p :: ps) ∧ r.max < r.min ∧
    ∃ q ∈ ps, 2 ^ 31 < q := by
  let as : List Act := .start true :: sendRound (.first 1500) ++
    [.deliver (.pong 2000 0) .ok, .reader .ok, .reader .ok, .pinger (.recv true), .pinger .collected, .pinger .go]
  have he : (stateOf (runActs ⟨1500, 4⟩ (State.init minute) as)).pinger = .send ⟨1, 2000, 1500⟩ (Round.probes ⟨1, 2000, 1500⟩) := by
    decide +kernel
  exact ⟨_, reachable_run (as := as) (by decide +kernel), ⟨1, 2000, 1500⟩, _, _, he, by decide,
    Round.probe ⟨1, 2000, 1500⟩ 2, by simp, by decide⟩

/-- C54 needs the upper bound on the limit: with the largest limit a lost probe makes the sum overflow. -/
theorem C54_overflow :
    ((Round.first (2 ^ 32 - 1)).finish (2 ^ 32 - 1) 4
      ((Found.none.add (.first (2 ^ 32 - 1)) ((Round.first (2 ^ 32 - 1)).probe 2) 0 true))) =
    .next ⟨1, 2863311579, 1⟩ := by decide +kernel

/-- C54 needs the lower bound on the limit: with the limit 100 the first round has a probe of 2 GiB. -/
theorem C54_small_limit : 2 ^ 31 < (Round.first 100).probe 2 := by decide +kernel

/-! ### C55 -/

/-- The side has finished without telling the other one. -/
def Silent (s : State) : Prop :=
  s.started = true ∧ (s.pinger = .stage ∨ s.pinger = .done) ∧ ∀ c, Msg.control c true ∉ s.out

/-- The side waits for the other one. -/
def Waits (s : State) : Prop := s.started = true ∧ s.fin ≠ .off ∧ s.once = .fresh ∧ s.okCalls = 0

theorem silent_step {s s' : State} {a : Act} (h : Silent s) (hs : step cfg s a = .ok s') : Silent s' := by
  obtain ⟨h0, h1, h2⟩ := h
  by_cases ha : a = .closer
  · subst ha
    rw [(closer_effect hs).1]
    exact ⟨h0, h1, h2⟩
  · rcases h1 with h1 | h1 <;>
      cases a <;> simp only [step, start, pingerStep, h1, finStep, deliver, readerStep, ne_eq, not_true] at hs ha <;>
      (repeat' split at hs) <;> (try (simp at hs; done)) <;> simp only [Outcome.ok.injEq] at hs <;> subst hs <;>
      first
      | (simp_all [Silent]; done)
      | (simp only [Silent]
         refine ⟨h0, by simp_all, ?_⟩
         intro c hm
         simp only [sent] at hm
         split at hm <;> simp_all)

theorem waits_step {s s' : State} {a : Act} {out : List Msg} (hi : Inv s) (h : Waits s) (hal : allowed out a)
    (hout : ∀ c, Msg.control c true ∉ out) (hs : step cfg s a = .ok s') : Waits s' := by
  obtain ⟨h0, h1, h2, h3⟩ := h
  by_cases ha : a = .closer
  · subst ha
    rw [(closer_effect hs).1]
    exact ⟨h0, h1, h2, h3⟩
  · cases a with
    | start en => simp only [step, start, h0, if_true, reduceCtorEq] at hs
    | pinger e =>
      simp only [step, pingerStep] at hs
      (repeat' split at hs) <;> (try (simp only [reduceCtorEq] at hs; done)) <;> simp only [Outcome.ok.injEq] at hs <;>
        subst hs <;> exact ⟨h0, h1, h2, h3⟩
    | fin e =>
      simp only [step, finStep] at hs
      have := hi.final
      have := hi.running
      (repeat' split at hs) <;> (try (simp only [reduceCtorEq] at hs; done)) <;> simp only [Outcome.ok.injEq] at hs <;>
        subst hs <;> simp_all [Waits, nextStage] <;> split <;> simp
    | deliver m w =>
      simp only [step, deliver] at hs
      (repeat' split at hs) <;> (try (simp only [reduceCtorEq] at hs; done)) <;> simp only [Outcome.ok.injEq] at hs <;>
        subst hs <;> try exact ⟨h0, h1, h2, h3⟩
      rename_i c e hc
      obtain ⟨rfl, -⟩ := hc
      exact absurd hal (hout c)
    | reader w =>
      simp only [step, readerStep] at hs
      (repeat' split at hs) <;> (try (simp only [reduceCtorEq] at hs; done)) <;> simp only [Outcome.ok.injEq] at hs <;>
        subst hs <;> exact ⟨h0, h1, h2, h3⟩
    | closeCall =>
      simp only [step] at hs
      split at hs <;> (simp only [Outcome.ok.injEq] at hs; subst hs) <;> exact ⟨h0, h1, h2, h3⟩
    | closer => exact absurd rfl ha
    | cancel =>
      simp only [step, Outcome.ok.injEq] at hs
      subst hs
      exact ⟨h0, h1, h2, h3⟩

/-- C55, cause of the violation: when one side has finished because of `MaxIterations`, it has told nobody; the other
side never succeeds, whatever happens. -/
theorem C55_silent {n : Net} (h : NetReachable ca cb ta tb n) (hs : Silent n.a) (hw : Waits n.b) :
    ∀ as n', runNet ca cb n as = .ok n' → n'.b.okCalls = 0 := by
  intro as n' hr
  have := runNet_preserves (P := fun n => NetReachable ca cb ta tb n ∧ Silent n.a ∧ Waits n.b)
    (fun n n' who a ⟨h1, h2, h3⟩ hst => by
      refine ⟨.step who a h1 hst, ?_⟩
      rcases netStep_cases hst with ⟨_, hal, hst, he⟩ | ⟨_, hal, hst, he⟩
      · rw [he]
        exact ⟨silent_step h2 hst, h3⟩
      · rw [he]
        exact ⟨h2, waits_step (inv_reachable (net_sides h1).2) h3 hal h2.2.2 hst⟩) as ⟨h, hs, hw⟩ hr
  exact this.2.2.2.2.2

theorem C55_silent_other {n : Net} (h : NetReachable ca cb ta tb n) (hs : Silent n.b) (hw : Waits n.a) :
    ∀ as n', runNet ca cb n as = .ok n' → n'.a.okCalls = 0 := by
  intro as n' hr
  have := runNet_preserves (P := fun n => NetReachable ca cb ta tb n ∧ Silent n.b ∧ Waits n.a)
    (fun n n' who a ⟨h1, h2, h3⟩ hst => by
      refine ⟨.step who a h1 hst, ?_⟩
      rcases netStep_cases hst with ⟨_, hal, hst, he⟩ | ⟨_, hal, hst, he⟩
      · rw [he]
        exact ⟨h2, waits_step (inv_reachable (net_sides h1).1) h3 hal h2.2.2 hst⟩
      · rw [he]
        exact ⟨silent_step h2 hst, h3⟩) as ⟨h, hs, hw⟩ hr
  exact this.2.2.2.2.2

/-- Default settings on a path for payloads of up to 1391 bytes, without any loss: both sides probe. -/
def pppoeNet : Net := netOf (runNet udp udp ⟨.init minute, .init minute⟩
  (probing udp 1391 ++ [(true, .fin .fromPinger), (false, .fin .fromPinger)]))
/-- And everything else that they have sent arrives. -/
def pppoeEnd : Net := netOf (runNet udp udp pppoeNet (controlsOf pppoeNet))

/-- C55 is violated with the default settings, without any loss, on a path for payloads of up to 1391 bytes (IPv6 on a
link with an MTU of 1492): both sides finish probing without an error, everything that was sent has arrived, and
neither of them will ever succeed. -/
theorem C55_violated : NetReachable udp udp minute minute pppoeEnd ∧
    pppoeEnd.a.pinger = .done ∧ pppoeEnd.b.pinger = .done ∧ pppoeEnd.a.errCalls = 0 ∧ pppoeEnd.b.errCalls = 0 ∧
    pppoeEnd.a.ctxDone = false ∧ pppoeEnd.b.ctxDone = false ∧ pppoeEnd.a.localRTT = 1377 ∧ pppoeEnd.b.remoteRTT = 1377 ∧
    ∀ as n', runNet udp udp pppoeEnd as = .ok n' → n'.a.okCalls = 0 ∧ n'.b.okCalls = 0 := by
  have h1 : NetReachable udp udp minute minute pppoeNet := reachable_net (by decide +kernel)
  have h2 : NetReachable udp udp minute minute pppoeEnd := runNet_reachable _ h1 (netOf_eq (by decide +kernel))
  have hf : (pppoeEnd.a.pinger = .done ∧ pppoeEnd.b.pinger = .done ∧ pppoeEnd.a.errCalls = 0 ∧ pppoeEnd.b.errCalls = 0 ∧
      pppoeEnd.a.ctxDone = false ∧ pppoeEnd.b.ctxDone = false ∧ pppoeEnd.a.localRTT = 1377 ∧ pppoeEnd.b.remoteRTT = 1377) ∧
      (∀ m ∈ pppoeEnd.a.out, (match m with | .control _ e => !e | _ => true) = true) ∧
      (∀ m ∈ pppoeEnd.b.out, (match m with | .control _ e => !e | _ => true) = true) ∧
      (pppoeEnd.a.started = true ∧ pppoeEnd.a.fin ≠ .off ∧ pppoeEnd.a.once = .fresh ∧ pppoeEnd.a.okCalls = 0) ∧
      (pppoeEnd.b.started = true ∧ pppoeEnd.b.fin ≠ .off ∧ pppoeEnd.b.once = .fresh ∧ pppoeEnd.b.okCalls = 0) := by
    decide +kernel
  generalize pppoeEnd = n at *
  obtain ⟨⟨f1, f2, f3, f4, f5, f6, f7, f8⟩, g1, g2, wa, wb⟩ := hf
  refine ⟨h2, f1, f2, f3, f4, f5, f6, f7, f8, ?_⟩
  have sa : Silent n.a := ⟨wa.1, Or.inr f1, fun c hm => by simpa using g1 _ hm⟩
  have sb : Silent n.b := ⟨wb.1, Or.inr f2, fun c hm => by simpa using g2 _ hm⟩
  exact fun as n' hr => ⟨C55_silent_other h2 sb wa as n' hr, C55_silent h2 sa wb as n' hr⟩

/-- Both ends are known to the side: its own search is over and the other side has said that it is finished. -/
def Ready (s : State) : Prop :=
  s.ctxDone = false ∧ (∃ k, s.fin = .wait k) ∧ (s.pinger = .stage ∨ s.pinger = .done) ∧ s.once ≠ .fresh

/-- C55, when a side is finished and has heard that the other side is finished: it succeeds by steps of its own. -/
theorem C55_ready_partial {s : State} (h : Reachable cfg t s) (hr : Ready s) :
    ∃ es : List FEvent, es.length ≤ 3 ∧ ∃ s', runActs cfg s (es.map .fin) = .ok s' ∧ s'.okCalls = 1 ∧ s'.est ≠ none := by
  have hi := inv_reachable h
  obtain ⟨_, ⟨k, hk⟩, hp, ho⟩ := hr
  obtain ⟨h1, h2, h3, h4, h5⟩ := hi.wait k hk
  have hrun := hi.running
  have honce : s.once = .running ∨ s.once = .done := by cases hs : s.once <;> simp_all
  have hk' : k = 0 ∨ k = 1 := by omega
  rcases hk' with rfl | rfl
  · obtain ⟨h4, h4'⟩ := h4 rfl
    have hst : s.pinger = .stage := by rcases hp with hp | hp; exact hp; exact absurd hp h4
    have hrd : s.reader = .stage := hrun.mp (by rcases honce with hh | hh; exact hh; exact absurd hh h4')
    refine ⟨[.fromPinger, .fromReader, .go], by simp, ?_⟩
    simp only [List.map_cons, List.map_nil, runActs, step, finStep, hk, hst, hrd, if_true, nextStage]
    simp [h2]
  · rcases h5 rfl with ⟨h5, h6⟩ | ⟨h5, h6⟩
    · have hrd : s.reader = .stage := hrun.mp (by rcases honce with hh | hh; exact hh; exact absurd hh h6)
      refine ⟨[.fromReader, .go], by simp, ?_⟩
      simp only [List.map_cons, List.map_nil, runActs, step, finStep, hk, hrd, if_true, nextStage]
      simp [h2]
    · have hst : s.pinger = .stage := by rcases hp with hp | hp; exact hp; exact absurd hp h5
      refine ⟨[.fromPinger, .go], by simp, ?_⟩
      simp only [List.map_cons, List.map_nil, runActs, step, finStep, hk, hst, if_true, nextStage]
      simp [h2]

/-- C55: and only the end of the context (or `Close`) can keep it from that. -/
theorem C55_stays_partial {s s' : State} {a : Act} (h : Reachable cfg t s) (hr : Ready s) (hc : a ≠ .cancel) (hcl : a ≠ .closeCall)
    (hs : step cfg s a = .ok s') : Ready s' ∨ s'.fin = .finalize := by
  obtain ⟨h1, ⟨k, hk⟩, hp, ho⟩ := hr
  have hst : s.started = true := by
    cases hst : s.started with
    | true => rfl
    | false => have := ((inv_reachable h).fresh hst).2.1; simp_all
  by_cases ha : a = .closer
  · subst ha
    rw [(closer_effect hs).1]
    exact Or.inl ⟨h1, ⟨k, hk⟩, hp, ho⟩
  · cases a with
    | start en => simp only [step, start, hst, if_true, reduceCtorEq] at hs
    | pinger e => rcases hp with hp | hp <;> simp only [step, pingerStep, hp, reduceCtorEq] at hs
    | fin e =>
      simp only [step, finStep, hk] at hs
      (repeat' split at hs) <;> (try (simp only [reduceCtorEq] at hs; done)) <;> simp only [Outcome.ok.injEq] at hs <;>
        subst hs <;> simp_all [Ready, nextStage] <;> split <;> simp_all
    | deliver m w =>
      simp only [step, deliver] at hs
      (repeat' split at hs) <;> (try (simp only [reduceCtorEq] at hs; done)) <;> simp only [Outcome.ok.injEq] at hs <;>
        subst hs <;> exact Or.inl ⟨h1, ⟨k, hk⟩, hp, by simp_all⟩
    | reader w =>
      simp only [step, readerStep] at hs
      (repeat' split at hs) <;> (try (simp only [reduceCtorEq] at hs; done)) <;> simp only [Outcome.ok.injEq] at hs <;>
        subst hs <;> exact Or.inl ⟨h1, ⟨k, hk⟩, hp, ho⟩
    | closeCall => exact absurd rfl hcl
    | closer => exact absurd rfl ha
    | cancel => exact absurd rfl hc

/-- C55 for two sides: when this side is finished and waits, and the other side has sent the message that it is
finished, the delivery of that message is all that is needed for success. -/
theorem C55_told_partial {n : Net} {c k : Nat} (h : NetReachable ca cb ta tb n) (hc : n.a.ctxDone = false)
    (hk : n.a.fin = .wait k) (hp : n.a.pinger = .stage ∨ n.a.pinger = .done) (hr : n.a.reader = .idle)
    (hm : Msg.control c true ∈ n.b.out) :
    ∃ as n', as.length ≤ 4 ∧ runNet ca cb n as = .ok n' ∧ n'.a.okCalls = 1 ∧ n'.a.est ≠ none := by
  have key : ∀ (es : List FEvent) {n : Net} {s' : State}, runActs ca n.a (es.map .fin) = .ok s' →
      runNet ca cb n (es.map fun e => (true, .fin e)) = .ok { n with a := s' } := by
    intro es
    induction es with
    | nil => intro n s' h; simp only [List.map_nil, runActs, Outcome.ok.injEq] at h; subst h; rfl
    | cons e es ih =>
      intro n s' h
      simp only [List.map_cons, runActs] at h
      split at h <;> try (simp only [reduceCtorEq] at h; done)
      rename_i s1 h1
      simp only [List.map_cons, runNet, netStep, allowed, if_true, h1]
      exact ih (n := { n with a := s1 }) h
  by_cases ho : n.a.once = .fresh
  · have hst : step ca n.a (.deliver (.control c true) .ok) =
        .ok { n.a with remoteRTT := c, once := .running, reader := .stage } := by
      simp only [step, deliver, hr, ne_eq, not_true, if_false]
      rw [if_pos ⟨trivial, ho⟩]
    have hn : netStep ca cb n true (.deliver (.control c true) .ok) =
        .ok { n with a := { n.a with remoteRTT := c, once := .running, reader := .stage } } := by
      simp only [netStep, allowed, if_true, hst]
      rw [if_pos hm]
    obtain ⟨es, hl, s', hs', h1, h2⟩ := C55_ready_partial (net_sides (.step true _ h hn)).1
      ⟨hc, ⟨k, hk⟩, hp, by simp⟩
    refine ⟨(true, .deliver (.control c true) .ok) :: es.map (fun e => (true, .fin e)), { n with a := s' }, by simp; omega, ?_, h1, h2⟩
    simp only [runNet, hn]
    exact key es (n := { n with a := { n.a with remoteRTT := c, once := .running, reader := .stage } }) hs'
  · obtain ⟨es, hl, s', hs', h1, h2⟩ := C55_ready_partial (net_sides h).1 ⟨hc, ⟨k, hk⟩, hp, ho⟩
    exact ⟨es.map (fun e => (true, .fin e)), { n with a := s' }, by simp; omega, key es hs', h1, h2⟩

/-- A run in which both sides succeed. -/
example : goodNet.a.okCalls = 1 ∧ goodNet.b.okCalls = 1 ∧ Msg.control 1392 true ∈ goodNet.b.out := by decide +kernel

/-! ### C56 -/

/-- Side A probes and finishes with the limit, having taken one answer; the other answers are still on their way. -/
def quick (w : Bool) : List (Bool × Act) :=
  (sendRound (.first 1392)).map (w, ·) ++
  [(!w, .deliver (.ping 1392 0) .ok), (!w, .deliver (.ping 977 0) .ok),
   (w, .deliver (.pong 1392 0) .ok), (w, .reader .ok), (w, .reader .ok), (w, .pinger (.recv true)), (w, .pinger .collected),
   (w, .pinger (.write .ok)), (w, .pinger (.write .ok)), (w, .pinger (.write .ok)), (w, .pinger .go), (w, .fin .fromPinger)]

def started : List (Bool × Act) := [(true, .start true), (false, .start true)]

/-- Both sides finish, both succeed, and the first one closes its negotiator, which `finalize` does. -/
def lateRun : List (Bool × Act) :=
  started ++ quick true ++
    quick false ++
  [(true, .deliver (.control 1392 true) .ok), (true, .fin .fromReader), (true, .fin .go), (true, .closeCall),
   (true, .closer), (true, .closer)]

def lateNet (as : List (Bool × Act)) : Net := netOf (runNet udp udp ⟨.init minute, .init minute⟩ (lateRun ++ as))

/-- C56 is violated: an answer that arrives after the end of a successful negotiation blocks the reader for ever. -/
theorem C56_violated_late : ∃ n, NetReachable udp udp minute minute n ∧ n.a.okCalls = 1 ∧ n.a.est = some 1392 ∧
    ∀ as n', runNet udp udp n as = .ok n' → n'.a.reader = .stuck := by
  have h : NetReachable udp udp minute minute (lateNet [(true, .deliver (.pong 977 0) .ok)]) :=
    reachable_net (by decide +kernel)
  refine ⟨_, h, by decide +kernel, by decide +kernel, ?_⟩
  intro as n' hr
  refine runNet_preserves (P := fun n => n.a.reader = .stuck) (fun n n' who a hp hst => ?_) as ?_ hr
  · rcases netStep_cases hst with ⟨_, _, hst, _⟩ | ⟨_, _, _, he⟩
    · exact stuck_step hp hst
    · rw [he]; exact hp
  · decide +kernel

/-- C56 is violated: with the negotiation switched off on one side only, the end of the other side's search blocks the
reader for ever. -/
theorem C56_violated_disabled : ∃ n, NetReachable udp udp minute minute n ∧ n.b.okCalls = 1 ∧
    ∀ as n', runNet udp udp n as = .ok n' → n'.b.reader = .stage := by
  let as : List (Bool × Act) := [(true, .start true), (false, .start false)] ++
    quick true ++ [(false, .deliver (.control 1392 true) .ok)]
  have h : NetReachable udp udp minute minute (netOf (runNet udp udp ⟨.init minute, .init minute⟩ as)) :=
    reachable_net (by decide +kernel)
  refine ⟨_, h, by decide +kernel, ?_⟩
  intro bs n' hr
  have := runNet_preserves (P := fun n => ReaderLost n.b) (fun n n' who a hp hst => ?_) bs ?_ hr
  · exact this.2.1
  · rcases netStep_cases hst with ⟨_, _, _, he⟩ | ⟨_, _, hst, _⟩
    · rw [he]; exact hp
    · exact readerLost_step hp hst
  · simp only [ReaderLost]; decide +kernel

/-- C56 is violated: after the total time-out the end of the other side's search blocks the reader for ever. -/
theorem C56_violated_timeout : ∃ n, NetReachable udp udp minute minute n ∧
    ∀ as n', runNet udp udp n as = .ok n' → n'.b.reader = .stage := by
  let as : List (Bool × Act) := started ++
    quick true ++
    [(false, .cancel), (false, .fin .ctx), (false, .deliver (.control 1392 true) .ok)]
  have h : NetReachable udp udp minute minute (netOf (runNet udp udp ⟨.init minute, .init minute⟩ as)) :=
    reachable_net (by decide +kernel)
  refine ⟨_, h, ?_⟩
  intro bs n' hr
  have := runNet_preserves (P := fun n => ReaderLost n.b) (fun n n' who a hp hst => ?_) bs ?_ hr
  · exact this.2.1
  · rcases netStep_cases hst with ⟨_, _, _, he⟩ | ⟨_, _, hst, _⟩
    · rw [he]; exact hp
    · exact readerLost_step hp hst
  · simp only [ReaderLost]; decide +kernel

/-- C56 is violated: a side that has not started yet answers probes, and the end of the other side's search then blocks
its reader until it is started. -/
theorem C56_violated_early : ∃ n, NetReachable udp udp minute minute n ∧ n.b.started = false ∧ n.b.reader = .stage ∧
    ∀ s' a, step udp n.b a = .ok s' → s'.started = false → s'.reader = .stage := by
  let as : List (Bool × Act) := [(true, .start true)] ++
    quick true ++ [(false, .deliver (.control 1392 true) .ok)]
  have h : NetReachable udp udp minute minute (netOf (runNet udp udp ⟨.init minute, .init minute⟩ as)) :=
    reachable_net (by decide +kernel)
  have hf : (netOf (runNet udp udp ⟨.init minute, .init minute⟩ as)).b.started = false ∧
      (netOf (runNet udp udp ⟨.init minute, .init minute⟩ as)).b.reader = .stage := by decide +kernel
  refine ⟨_, h, hf.1, hf.2, ?_⟩
  have hi := inv_reachable (net_sides h).2
  generalize (netOf (runNet udp udp ⟨.init minute, .init minute⟩ as)).b = s at *
  obtain ⟨h1, h2⟩ := hf
  obtain ⟨f1, f2, f3, f4, f5⟩ := hi.fresh h1
  intro s' a hs hst
  by_cases ha : a = .closer
  · subst ha
    rw [(closer_effect hs).1]
    exact h2
  · cases a <;> simp only [step, start, pingerStep, finStep, deliver, readerStep, ne_eq, not_true, f1, f2, h2] at hs ha <;>
      (repeat' split at hs) <;> (try (simp at hs; done)) <;> simp only [Outcome.ok.injEq] at hs <;> subst hs <;>
      simp_all

/-- C56: an answer that arrives while the negotiator is being closed crashes the process: the reader sends to a channel
that is being closed. -/
theorem C56_violated_crash : ∃ n, NetReachable udp udp minute minute n ∧ n.a.okCalls = 1 ∧
    n.a.reader = .recv 977 0 ∧ netStep udp udp n true .closer = .panic := by
  let as : List (Bool × Act) := lateRun.dropLast.dropLast ++ [(true, .deliver (.pong 977 0) .ok)]
  have h : NetReachable udp udp minute minute (netOf (runNet udp udp ⟨.init minute, .init minute⟩ as)) :=
    reachable_net (by decide +kernel)
  exact ⟨_, h, by decide +kernel, by decide +kernel, by decide +kernel⟩

/-- C56, all causes: a reader that can not go on is at one of these three places. -/
theorem C56_causes_partial {s : State} (h : Reachable cfg t s) (hr : s.reader ≠ .idle)
    (hb : ∀ w s', step cfg s (.reader w) ≠ .ok s') (hf : ∀ s', step cfg s (.fin .fromReader) ≠ .ok s') :
    (s.reader = .stage ∧ ∀ k, s.fin ≠ .wait k) ∨
    (∃ sz it items, s.reader = .recv sz it ∧ s.recv = .opened items ∧ 32 ≤ items.length) ∨
    (s.reader = .stuck ∧ s.closer = .done) := by
  have hi := inv_reachable h
  cases hrd : s.reader with
  | idle => exact absurd hrd hr
  | stage =>
    refine Or.inl ⟨by simp, fun k hk => ?_⟩
    refine hf { s with reader := .idle, once := .done, fin := nextStage k } ?_
    simp only [step, finStep, hk, hrd, if_true]
  | recv sz it =>
    obtain ⟨items, hitems⟩ := hi.sending (by rw [hrd]; rfl)
    refine Or.inr (Or.inl ⟨sz, it, items, by simp, hitems, ?_⟩)
    apply Nat.le_of_not_lt
    intro hlt
    refine hb .ok { s with recv := .opened (items ++ [(sz, it)]), reader := .control } ?_
    simp only [step, readerStep, hrd, hitems]
    rw [if_pos hlt]
  | stuck => exact Or.inr (Or.inr ⟨by simp, hi.goneBy.mp (hi.stuck hrd)⟩)
  | control =>
    exfalso
    exact hb .ok _ (by simp only [step, readerStep, hrd]; rfl)

/-- C56: while this side is collecting answers and its finalizer waits, the reader always gets on: within two steps of
the other goroutines of this side and one of its own. -/
theorem C56_collecting_partial {s : State} {r : Round} {f : Found} {k : Nat} (h : Reachable cfg t s)
    (hp : s.pinger = .collect r f) (hk : s.fin = .wait k) (hr : s.reader ≠ .idle) :
    ∃ as s', as.length ≤ 3 ∧ runActs cfg s as = .ok s' ∧ s'.reader = .idle := by
  have hi := inv_reachable h
  cases hrd : s.reader with
  | idle => exact absurd hrd hr
  | stage =>
    refine ⟨[.fin .fromReader], { s with reader := .idle, once := .done, fin := nextStage k }, by simp, ?_, rfl⟩
    simp only [runActs, step, finStep, hk, hrd, if_true]
  | recv sz it =>
    obtain ⟨items, hitems⟩ := hi.sending (by rw [hrd]; rfl)
    have two : ∀ {s : State} {items}, s.reader = .recv sz it → s.recv = .opened items → items.length < 32 →
        ∃ s', runActs cfg s [.reader .ok, .reader .ok] = .ok s' ∧ s'.reader = .idle := by
      intro s items hrd hitems hlt
      have h1 : step cfg s (.reader .ok) = .ok { s with recv := .opened (items ++ [(sz, it)]), reader := .control } := by
        simp only [step, readerStep, hrd, hitems]
        rw [if_pos hlt]
      simp only [runActs, h1]
      simp [step, readerStep]
    by_cases hlt : items.length < 32
    · obtain ⟨s', h1, h2⟩ := two hrd hitems hlt
      exact ⟨_, s', by simp, h1, h2⟩
    · cases items with
      | nil => simp at hlt
      | cons i is =>
        have hl2 : is.length < 32 := by
          have := fits_reachable h _ hitems
          simp at this; omega
        have h1 : step cfg s (.pinger (.recv false)) =
            .ok { s with recv := .opened is, pinger := .collect r (f.add r i.1 i.2 false) } := by
          simp only [step, pingerStep, hp, hitems, Chan.take]
        obtain ⟨s', h2, h3⟩ := two
          (s := { s with recv := .opened is, pinger := .collect r (f.add r i.1 i.2 false) }) hrd rfl hl2
        refine ⟨[.pinger (.recv false), .reader .ok, .reader .ok], s', by simp, ?_, h3⟩
        rw [runActs, h1]
        exact h2
  | stuck =>
    have := (hi.tasks (Or.inr (hi.goneBy.mp (hi.stuck hrd)))).1
    rw [hp] at this
    simp at this
  | control => exact ⟨[.reader .ok], _, by simp, by simp only [runActs, step, readerStep, hrd]; rfl, rfl⟩

/-! ### C62 -/

/-- C62: the negotiator reports success at most once, and only after `Start`. -/
theorem C62_success_once {s : State} (h : Reachable cfg t s) : s.okCalls ≤ 1 ∧ (s.started = false → s.okCalls = 0) :=
  ⟨(inv_reachable h).ok, fun hs => ((inv_reachable h).fresh hs).2.2.1⟩

example : ∃ s, Reachable udp minute s ∧ s.okCalls = 1 :=
  ⟨_, (net_sides (reachable_net good_ok)).1, by decide +kernel⟩

/-! ### C75 -/

/-- C75: between two sides that follow the protocol the negotiated size is 0 or at least the smallest probe. -/
theorem C75_floor_partial {n : Net} {e : Nat} (ha : ca.Sane) (hb : cb.Sane) (h : NetReachable ca cb ta tb n)
    (he : n.a.est = some e ∨ n.b.est = some e) : e = 0 ∨ 147 ≤ e := by
  obtain ⟨f1, f2⟩ := net_floor ha hb h
  rcases he with he | he
  · exact f1.est e he
  · exact f2.est e he

example : 147 ≤ 1392 ∧ goodNet.a.est = some 1392 := by decide +kernel

/-- A side whose limit leaves nothing to probe goes through without a probe. -/
def narrowRun (w : Bool) : List (Bool × Act) :=
  [(w, .pinger .go), (w, .pinger (.write .ok)), (w, .pinger (.write .ok)), (w, .pinger (.write .ok)), (w, .pinger .go),
   (w, .fin .fromPinger)]

/-- C75 is violated: with a limit of 150, which allows messages of 150 bytes, the negotiation succeeds with size 0. -/
theorem C75_violated : ∃ n, NetReachable ⟨150, 4⟩ ⟨150, 4⟩ minute minute n ∧ n.a.est = some 0 ∧ n.b.est = some 0 ∧
    n.a.okCalls = 1 ∧ n.b.okCalls = 1 := by
  let as : List (Bool × Act) := started ++ narrowRun true ++ narrowRun false ++
    [true, false].flatMap (fun w => [(w, .deliver (.control 0 true) .ok), (w, .fin .fromReader), (w, .fin .go)])
  exact ⟨_, reachable_net (as := as) (by decide +kernel), by decide +kernel⟩

/-- C75, exactly which limits: no probe is ever sent iff the limit is from 147 to 150. -/
theorem C75_narrow {s : State} (hs : cfg.Sane) (hd : s.ctxDone = false) :
    atTop s (.first cfg.limit) = .control 3 ↔ cfg.limit ≤ 150 := by
  have h1 := hs.low
  have h2 := hs.high
  have : (Round.first cfg.limit).width = cfg.limit - 147 := width_eq (by simp [Round.first]; omega) (by simp [Round.first]; omega)
  simp only [atTop, hd, this]
  simp only [Bool.false_eq_true, if_false]
  constructor
  · intro h
    split at h
    · omega
    · simp at h
  · intro h
    rw [if_pos (by omega)]

/-! ### C76 -/

/-- C76: a positive time-out is the one that is used in every round, and with a negative one there is no time-out in any
round but the first. -/
theorem C76_later_partial {s : State} {r : Round} {f : Found} (h : Reachable cfg t s) (hp : s.pinger = .collect r f) :
    (0 < t → s.readTimeout = t) ∧ (t < 0 → 0 < r.cur → ∀ s', step cfg s (.pinger .readTimeout) ≠ .ok s') := by
  obtain ⟨h1, h2⟩ := (timeouts_reachable h).cur r f hp
  refine ⟨h1, fun ht hr s' hs => ?_⟩
  have := h2 (by omega) hr
  simp only [step, pingerStep, hp, this] at hs
  simp at hs

/-- A run that gets to the second round with a negative time-out. -/
example : ∃ n, NetReachable udp udp (-1) (-1) n ∧ ∃ f, n.a.pinger = .collect ⟨1, 562, 979⟩ f := by
  let as := started ++ fullRound 600 true (.first 1392) ++ (sendRound ⟨1, 562, 979⟩).map (true, ·)
  refine ⟨_, reachable_net (as := as) (by decide +kernel), .none, by decide +kernel⟩

/-- C76 is violated: with a negative `ReadTimeout`, which should switch the time-out off, the first round times out, and
may do so at once. -/
theorem C76_violated : ∃ s s', Reachable udp (-1) s ∧ s.errCalls = 0 ∧ step udp s (.pinger .readTimeout) = .ok s' ∧
    s'.errCalls = 1 ∧ s'.pinger = .stage := by
  let as : List Act := .start true :: sendRound (.first 1392)
  have h : isOk (step udp (stateOf (runActs udp (State.init (-1)) as)) (.pinger .readTimeout)) = true := by
    decide +kernel
  exact ⟨_, _, reachable_run (as := as) (by decide +kernel), by decide +kernel, stateOf_eq h, by decide +kernel⟩

/-- C76: in the first round with a time-out that is not positive the time-out is always possible. -/
theorem C76_always {s : State} {r : Round} {f : Found} (hp : s.pinger = .collect r f) (h : s.readTimeout < 0) :
    ∃ s', step cfg s (.pinger .readTimeout) = .ok s' ∧ s'.errCalls = s.errCalls + 1 := by
  have : s.readTimeout < infinite := by simp only [infinite]; omega
  exact ⟨{ s with pinger := .stage, errCalls := s.errCalls + 1 }, by simp only [step, pingerStep, hp, if_pos this], rfl⟩

/-! ### C77 -/

/-- C77: closing completes in at most two steps once the tasks are through. -/
theorem C77_closes_partial {s : State} (h : Reachable cfg t s) (hc : s.closer = .waiting)
    (ht : s.est ≠ none ∨ s.pinger = .off) (hr : s.reader.sending = false) :
    ∃ s', runActs cfg s [.closer, .closer] = .ok s' ∧ s'.closer = .done := by
  have hi := inv_reachable h
  have htask : s.tasksDone = true := by
    simp only [State.tasksDone]
    rcases ht with ht | ht
    · obtain ⟨_, h1, h2, _⟩ := hi.est ht
      simp [h1, h2]
    · simp [ht, hi.offs.mp ht]
  cases hrc : s.recv with
  | gone => have := hi.goneBy.mp hrc; rw [hc] at this; simp at this
  | closed => have := hi.closedBy.mp hrc; rw [hc] at this; simp at this
  | opened l =>
    have h1 : step cfg s .closer = .ok { s with recv := .closed, closer := .closed } := by
      simp [step, closerStep, hc, htask, hrc, hr]
    simp only [runActs, h1]
    simp [step, closerStep]

/-- Both kinds of states: after success, and with the negotiation switched off. -/
example : (∃ n, NetReachable udp udp minute minute n ∧ n.a.closer = .waiting ∧ n.a.est = some 1392 ∧
      n.a.reader.sending = false) ∧
    ∃ s, Reachable udp minute s ∧ s.closer = .waiting ∧ s.pinger = .off ∧ s.reader.sending = false := by
  refine ⟨⟨_, reachable_net (as := goodRun ++ [(true, .closeCall)]) (by decide +kernel), by decide +kernel⟩,
    ⟨_, reachable_run (as := [.start false]) (by decide +kernel), by decide +kernel⟩⟩

/-- C77 is violated: `Close` while the negotiation is going on. The finalizer sees the cancelled context and leaves, the
ping sender then waits for it for ever, and `Close` waits for the ping sender for ever. -/
theorem C77_violated : ∃ n, NetReachable udp udp minute minute n ∧ n.a.closer = .waiting ∧
    ∀ as n', runNet udp udp n as = .ok n' → n'.a.closer ≠ .closed ∧ n'.a.closer ≠ .done := by
  let as := started ++ [(true, .pinger .go), (true, .closeCall), (true, .fin .ctx)]
  have h : NetReachable udp udp minute minute (netOf (runNet udp udp ⟨.init minute, .init minute⟩ as)) :=
    reachable_net (by decide +kernel)
  refine ⟨_, h, by decide +kernel, ?_⟩
  intro bs n' hr
  have := runNet_preserves (P := fun n => Abandoned n.a) (fun n n' who a hp hst => ?_) bs ?_ hr
  · rcases this.2.2.2.2.2.2 with h | h <;> simp [h]
  · rcases netStep_cases hst with ⟨_, _, hst, _⟩ | ⟨_, _, _, he⟩
    · exact abandoned_step hp hst
    · rw [he]; exact hp
  · simp only [Abandoned]; decide +kernel

/-! ### C78 -/

/-- C78 is violated: when the total time-out comes after a size was found, that size is never used and success is never
reported. -/
theorem C78_violated : ∃ n, NetReachable udp udp minute minute n ∧ n.a.localRTT = 977 ∧
    ∀ as n', runNet udp udp n as = .ok n' → n'.a.est = none ∧ n'.a.okCalls = 0 := by
  let as := started ++ fullRound 1000 true (.first 1392) ++ [(true, .cancel), (true, .fin .ctx)]
  have h : NetReachable udp udp minute minute (netOf (runNet udp udp ⟨.init minute, .init minute⟩ as)) :=
    reachable_net (by decide +kernel)
  refine ⟨_, h, by decide +kernel, ?_⟩
  intro bs n' hr
  have := runNet_preserves (P := fun n => GaveUp n.a) (fun n n' who a hp hst => ?_) bs ?_ hr
  · exact this.2.2
  · rcases netStep_cases hst with ⟨_, _, hst, _⟩ | ⟨_, _, _, he⟩
    · exact gaveUp_step hp hst
    · rw [he]; exact hp
  · simp only [GaveUp]; decide +kernel

/-- C78: what holds is that the time-out never makes the negotiator use anything but the minimum of what both sides
have found. -/
theorem C78_best_partial {s s' : State} {a : Act} {e : Nat} (hs : step cfg s a = .ok s') (h0 : s.est = none)
    (he : s'.est = some e) : e = min s.remoteRTT s.localRTT := by
  rcases (effect_step hs).est with h | h
  · rw [h, h0] at he; simp at he
  · rw [h] at he
    simp only [Option.some.injEq] at he
    subst he
    split <;> omega

/-! ### C79 -/

/-- The probes of a round. -/
structure Round.Sane (r : Round) : Prop where
  wide : r.min + 3 < r.max
  high : r.max < 2 ^ 30

theorem probe_val {r : Round} (h : r.Sane) {i : Nat} (hi : i ≤ 3) :
    r.probe i = r.min + (i * (r.max - r.min) + 2) / 3 := by
  have h1 := h.wide
  have h2 := h.high
  have hw : r.width = r.max - r.min := width_eq (by omega) (by omega)
  have hb : (i * (r.max - r.min) + 2) / 3 ≤ r.max - r.min + 1 := by
    have : i * (r.max - r.min) ≤ 3 * (r.max - r.min) := Nat.mul_le_mul_right _ hi
    omega
  rw [Round.probe, hw, add32]
  exact Nat.mod_eq_of_lt (by omega)

theorem fold_max {r : Round} {m c : Nat} (l : List Nat) (f : Found) (hf : f.nextMin ≤ m) (hl : ∀ p ∈ l, p ≤ m)
    (hm : m ∈ l ∨ f.nextMin = m) : (l.foldl (fun f p => f.add r p c true) f).nextMin = m := by
  induction l generalizing f with
  | nil => rcases hm with hm | hm <;> simp_all
  | cons p l ih =>
    have hp := hl p (by simp)
    rw [List.foldl_cons]
    refine ih _ ?_ (fun q hq => hl q (by simp [hq])) ?_
    · simp only [Found.add]; split <;> omega
    · simp only [Found.add]
      rcases hm with hm | hm
      · rcases List.mem_cons.mp hm with rfl | hm
        · right; split <;> omega
        · exact Or.inl hm
      · right; split <;> omega

/-- What is learnt on a loss-free path: the largest probe that fits. -/
theorem learn_spec {r : Round} {M i : Nat} (h : r.Sane) (hi : i ≤ 3) (h1 : r.probe i ≤ M) (h2 : i = 3 ∨ M < r.probe (i + 1)) :
    (learn M r).nextMin = r.probe i := by
  have e0 := probe_val h (i := 0) (by omega)
  have e1 := probe_val h (i := 1) (by omega)
  have e2 := probe_val h (i := 2) (by omega)
  have e3 := probe_val h (i := 3) (by omega)
  have hi' : i = 0 ∨ i = 1 ∨ i = 2 ∨ i = 3 := by omega
  refine fold_max _ _ (by simp [Found.none]) ?_ (Or.inl ?_)
  · intro p hp
    simp only [List.mem_filter, decide_eq_true_eq, Round.probes, List.mem_cons, List.not_mem_nil, or_false] at hp
    obtain ⟨hp, hM⟩ := hp
    have hp' : p = r.probe 0 ∨ p = r.probe 1 ∨ p = r.probe 2 ∨ p = r.probe 3 := by
      rcases hp with h | h | h | h | h | h | h | h | h | h | h | h <;> simp [h]
    clear hp
    rcases hi' with rfl | rfl | rfl | rfl <;> simp only [Nat.reduceAdd] at h2 <;> omega
  · simp only [List.mem_filter, decide_eq_true_eq]
    refine ⟨?_, h1⟩
    rcases hi' with rfl | rfl | rfl | rfl <;> simp [Round.probes]

/-- C55: on a path that carries everything the search ends with the limit in the first round, whatever the other
settings are. -/
theorem C55_reaches_limit {M : Nat} (hl : 150 < cfg.limit) (hh : cfg.limit < 2 ^ 30) (hM : cfg.limit ≤ M) :
    (learn M (.first cfg.limit)).nextMin = cfg.limit ∧
    (Round.first cfg.limit).finish cfg.limit cfg.maxIter (learn M (.first cfg.limit)) = .control := by
  have hs : (Round.first cfg.limit).Sane := ⟨by simp [Round.first]; omega, hh⟩
  have h3 := probe_val hs (i := 3) (by omega)
  have h3' : (Round.first cfg.limit).probe 3 = cfg.limit := by rw [h3]; simp only [Round.first]; omega
  have := (learn_spec (M := M) hs (i := 3) (by omega) (by omega) (Or.inl rfl))
  rw [h3'] at this
  refine ⟨this, ?_⟩
  simp [Round.finish, this]

example : 150 < udp.limit ∧ udp.limit < 2 ^ 30 ∧ udp.limit ≤ 1400 := by decide

/-- C79: when the path carries probe 1 of a round, more than half of what it carries is found in that round. -/
theorem C79_half_partial {r : Round} {M : Nat} (h : r.Sane) (hM : r.probe 1 ≤ M) (hm : M ≤ r.max) :
    M < 2 * (learn M r).nextMin := by
  have e1 := probe_val h (i := 1) (by omega)
  have e2 := probe_val h (i := 2) (by omega)
  have e3 := probe_val h (i := 3) (by omega)
  have hw := h.wide
  by_cases h3 : r.probe 3 ≤ M
  · rw [(learn_spec h (by omega) h3 (Or.inl rfl))]; omega
  · by_cases h2 : r.probe 2 ≤ M
    · rw [(learn_spec h (by omega) h2 (Or.inr (by simpa using h3)))]; omega
    · rw [(learn_spec h (by omega) hM (Or.inr (by simpa using h2)))]; omega

example : (Round.first 1392).Sane ∧ (Round.first 1392).probe 1 ≤ 1000 ∧ 1000 ≤ (Round.first 1392).max :=
  ⟨⟨by decide, by decide⟩, by decide, by decide⟩

/-- C79: a later round never finds less than the round before it. -/
theorem C79_grows {r : Round} {M : Nat} (h : r.Sane) (hM : r.min ≤ M) : r.min ≤ (learn M r).nextMin := by
  have e0 := probe_val h (i := 0) (by omega)
  have e1 := probe_val h (i := 1) (by omega)
  have e2 := probe_val h (i := 2) (by omega)
  have e3 := probe_val h (i := 3) (by omega)
  by_cases h3 : r.probe 3 ≤ M
  · rw [(learn_spec h (by omega) h3 (Or.inl rfl))]; omega
  · by_cases h2 : r.probe 2 ≤ M
    · rw [(learn_spec h (by omega) h2 (Or.inr (by simpa using h3)))]; omega
    · by_cases h1 : r.probe 1 ≤ M
      · rw [(learn_spec h (by omega) h1 (Or.inr (by simpa using h2)))]; omega
      · rw [(learn_spec h (i := 0) (by omega) (by omega) (Or.inr (by simpa using h1)))]; omega

example : (Round.first 1392).Sane ∧ (Round.first 1392).min ≤ 200 := ⟨⟨by decide, by decide⟩, by decide⟩

/-- C79 is violated in general: when the path carries less than probe 1 of the first round, that is less than about a third
of the limit, then the search ends at once, with the smallest size. -/
theorem C79_ends_low {M : Nat} (hl : 150 < cfg.limit) (hh : cfg.limit < 2 ^ 30) (h1 : 147 ≤ M)
    (h2 : M < 147 + (cfg.limit - 147 + 2) / 3) :
    (learn M (.first cfg.limit)).nextMin = 147 ∧
    (Round.first cfg.limit).finish cfg.limit cfg.maxIter (learn M (.first cfg.limit)) = .control := by
  have hs : (Round.first cfg.limit).Sane := ⟨by simp [Round.first]; omega, hh⟩
  have e0 := probe_val hs (i := 0) (by omega)
  have e1 := probe_val hs (i := 1) (by omega)
  have m0 : (Round.first cfg.limit).min = 147 := rfl
  have m1 : (Round.first cfg.limit).max = cfg.limit := rfl
  rw [m0, m1] at e0 e1
  have e0' : (Round.first cfg.limit).probe 0 = 147 := by rw [e0]; omega
  have := (learn_spec (M := M) hs (i := 0) (by omega) (by omega) (Or.inr (by rw [e1]; omega)))
  rw [e0'] at this
  refine ⟨this, ?_⟩
  simp only [Round.finish, this, m0, if_true]

/-- Every ping of `s` of at most `M` bytes was answered by `o`. -/
def answered (M : Nat) (s o : State) : Bool :=
  s.out.all fun m => match m with
    | .ping p it => decide (M < p) || decide (Msg.pong p it ∈ o.out)
    | _ => true

theorem answered_spec {M : Nat} {s o : State} (h : answered M s o = true) :
    ∀ p, p ≤ M → ∀ it, Msg.ping p it ∈ s.out → Msg.pong p it ∈ o.out := by
  intro p hp it hm
  have := List.all_eq_true.mp h _ hm
  simp only [Bool.or_eq_true, decide_eq_true_eq] at this
  rcases this with h | h
  · omega
  · exact h

/-- C79 is violated with the default settings: the path carries 550 bytes and loses nothing that fits, and 147 bytes are
used. -/
theorem C79_violated : ∃ n, NetReachable udp udp minute minute n ∧ n.a.est = some 147 ∧ n.b.est = some 147 ∧
    n.a.okCalls = 1 ∧ n.b.okCalls = 1 ∧
    (∀ p, p ≤ 550 → ∀ it, Msg.ping p it ∈ n.a.out → Msg.pong p it ∈ n.b.out) ∧
    (∀ p, p ≤ 550 → ∀ it, Msg.ping p it ∈ n.b.out → Msg.pong p it ∈ n.a.out) ∧ 2 * 147 < 550 := by
  let as := probing udp 550 ++
    [true, false].flatMap (fun w => [(w, .pinger (.write .ok)), (w, .pinger (.write .ok)), (w, .pinger (.write .ok)),
      (w, .pinger .go), (w, .fin .fromPinger)]) ++
    [true, false].flatMap (fun w => [(w, .deliver (.control 147 true) .ok), (w, .fin .fromReader), (w, .fin .go)])
  have hf : (netOf (runNet udp udp ⟨.init minute, .init minute⟩ as)).a.est = some 147 ∧
      (netOf (runNet udp udp ⟨.init minute, .init minute⟩ as)).b.est = some 147 ∧
      (netOf (runNet udp udp ⟨.init minute, .init minute⟩ as)).a.okCalls = 1 ∧
      (netOf (runNet udp udp ⟨.init minute, .init minute⟩ as)).b.okCalls = 1 ∧
      answered 550 (netOf (runNet udp udp ⟨.init minute, .init minute⟩ as)).a
        (netOf (runNet udp udp ⟨.init minute, .init minute⟩ as)).b = true ∧
      answered 550 (netOf (runNet udp udp ⟨.init minute, .init minute⟩ as)).b
        (netOf (runNet udp udp ⟨.init minute, .init minute⟩ as)).a = true := by decide +kernel
  refine ⟨_, reachable_net (as := as) (by decide +kernel), hf.1, hf.2.1, hf.2.2.1, hf.2.2.2.1,
    answered_spec hf.2.2.2.2.1, answered_spec hf.2.2.2.2.2, by decide⟩

#print axioms C53_safe_partial
#print axioms C53_safe_other_partial
#print axioms C53_violated
#print axioms C53_echo
#print axioms C53_checksum
#print axioms C53_control
#print axioms C54_rounds
#print axioms C54_range_partial
#print axioms C54_terminates
#print axioms C54_goes_on
#print axioms C54_violated
#print axioms C54_overflow
#print axioms C54_small_limit
#print axioms C55_silent
#print axioms C55_silent_other
#print axioms C55_violated
#print axioms C55_ready_partial
#print axioms C55_stays_partial
#print axioms C55_told_partial
#print axioms C56_violated_late
#print axioms C56_violated_disabled
#print axioms C56_violated_timeout
#print axioms C56_violated_early
#print axioms C56_violated_crash
#print axioms C56_causes_partial
#print axioms C56_collecting_partial
#print axioms C62_success_once
#print axioms C75_floor_partial
#print axioms C75_violated
#print axioms C75_narrow
#print axioms C76_later_partial
#print axioms C76_violated
#print axioms C76_always
#print axioms C77_closes_partial
#print axioms C77_violated
#print axioms C78_violated
#print axioms C78_best_partial
#print axioms C55_reaches_limit
#print axioms C79_half_partial
#print axioms C79_grows
#print axioms C79_ends_low
#print axioms C79_violated
#print axioms C53_short

/-- The doubling wraps around like `uint32`. -/
example : newMax (2 ^ 32 - 1) ⟨0, 147, 2 ^ 31⟩ ⟨2 ^ 31, 2 ^ 31, true⟩ = 0 ∧
    newMax (2 ^ 32 - 1) ⟨0, 147, 2 ^ 30⟩ ⟨2 ^ 30, 2 ^ 30, true⟩ = 2 ^ 31 := by decide

end Verif.Negotiator
