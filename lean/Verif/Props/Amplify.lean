import Verif.Lemmas.Amplify
import Verif.Lemmas.MutualKeys
/-!
# C129: messages of the protocol do not multiply

`isAnswerMsg b` is the `IsAnswer` flag of message `b` (bytes 64 to 145 are the signed fields).
-/
namespace Verif.KX
open Verif.Headers
variable {C : Crypto} {cfg : Cfg}

/-- C129, one side: whatever is received, in whatever order the goroutines run, a side sends at most one answer for each
request it got (an answer never causes a message), and every other message is due to its own loop. -/
theorem C129_answers {remote : Option Bytes} {as : List Act} {s : State} (h : runActs C cfg (State.init remote) as = .ok s) :
    s.sent.countP isAnswerMsg ≤ (received as).countP (fun b => decide (146 ≤ b.length) && !isAnswerMsg b) ∧
    s.sent.countP (!isAnswerMsg ·) ≤ tries as := by
  have := counts_run as (Reachable.init (C := C) (cfg := cfg) (remote := remote)) h
  simp only [State.init, List.countP_nil, List.length_nil, Reader.asks, Main.asks, received_requests, tries_own] at this
  omega

/-- C129, bytes: the answers a side has sent are not longer, all together, than the requests it has received. -/
theorem C129_bytes {remote : Option Bytes} {as : List Act} {s : State} (h : runActs C cfg (State.init remote) as = .ok s) :
    ((s.sent.filter isAnswerMsg).map List.length).sum ≤
      (((received as).filter (!isAnswerMsg ·)).map List.length).sum := by
  have h1 := (C129_answers h).1
  have h2 := sum_ge (received as) (!isAnswerMsg ·)
  have h3 : ∀ l : List Bytes, (∀ m ∈ l, m.length = 146) → ((l.filter isAnswerMsg).map List.length).sum = 146 * l.countP isAnswerMsg := by
    intro l
    induction l with
    | nil => intro _; rfl
    | cons m l ih =>
      intro hl
      have := ih fun x hx => hl x (List.mem_cons_of_mem _ hx)
      have hm := hl m (List.mem_cons_self ..)
      simp only [List.filter_cons, List.countP_cons]
      split <;> simp_all <;> omega
  rw [h3 s.sent (fun m hm => by
    obtain ⟨k, -, x, rfl⟩ := sent_origin (runActs_reachable as .init h) m hm
    exact (body_kxMessage _ x (C.pub_length _)).2)]
  omega

/-- A request is answered by one message of the same size; the answer of the peer is not answered. -/
example : (aliceAt (rotate [5] 1 ++ handle bob1 ++ [.answer 0 none 0 true, .answer 0 none 0 true] ++ handle bobAnswer)).sent.map
      (fun m => (isAnswerMsg m, m.length)) = [(false, 146), (true, 146)] ∧
    isOk (runActs toy alice (State.init none)
      (rotate [5] 1 ++ handle bob1 ++ [.answer 0 none 0 true, .answer 0 none 0 true] ++ handle bobAnswer)) = true ∧
    (aliceAt (rotate [5] 1 ++ handle bob1 ++ [.answer 0 none 0 true, .answer 0 none 0 true] ++ handle bobAnswer)).answers = [] ∧
    (received (rotate [5] 1 ++ handle bob1 ++ [.answer 0 none 0 true, .answer 0 none 0 true] ++ handle bobAnswer)).map
      (fun m => (isAnswerMsg m, m.length)) = [(false, 146), (true, 146)] ∧
    tries (rotate [5] 1 ++ handle bob1 ++ [.answer 0 none 0 true, .answer 0 none 0 true] ++ handle bobAnswer) = 1 := by
  decide +kernel

end Verif.KX

namespace Verif.Handshake

/-- C129, both sides: two sides that answer each other come to rest. Everything that both of them and the network do, all
together, is at most 26 steps for the start, 14 for every tick of a `KeyUpdateInterval` and 10 for every repetition. -/
theorem C129_rest {mode : Nat} {as : List Act} {s : Sys} (h : run mode .init as = some s) :
    as.length ≤ 26 + 14 * ticks as + 10 * retries as := by
  have := weight_run as h
  have e : Sys.init.weight = 26 := rfl
  omega

/-- C129, from any state: without ticks and repetitions nothing more happens after finitely many steps. -/
theorem C129_rest_from (s : Sys) : ∃ n, ∀ {mode : Nat} {as : List Act} {s' : Sys}, run mode s as = some s' → ticks as = 0 →
    retries as = 0 → as.length ≤ n := by
  refine ⟨s.weight, fun h h1 h2 => ?_⟩
  have := weight_run _ h
  omega

/-- Both sides send a request, and answer the request of the other side: 16 steps. -/
example : (run 1 .init [.loop false false 1, .loop false false 1, .loop false false 1, .loop true false 1, .loop true false 1,
    .loop true false 1, .recv true 0, .recv false 0, .answer true 0 2, .answer true 0 2, .answer false 0 2, .answer false 0 2,
    .recv false 0, .recv true 0, .done false, .done true]).any
      (fun s => s.toA == [] && s.toB == [] && s.a.main == .idle && s.b.main == .idle && s.a.answers == [] && s.b.answers == []) =
    true := by decide +kernel

end Verif.Handshake

namespace Verif.Negotiator

/-- C129, negotiation: the pongs a side has sent are, in order, answers to different pings it has received, each of the size of
its ping; and it sends at most one control message for each pong it has received. Control messages are not answered. -/
theorem C129_negotiation {cfg : Cfg} {timeout : Int} {as : List Act} {s : State}
    (h : runActs cfg (State.init timeout) as = .ok s) :
    (s.out.filterMap Msg.ponged).Sublist ((delivered as).filterMap Msg.pinged) ∧
    s.out.countP Msg.isInfo ≤ (delivered as).countP Msg.isPong := by
  obtain ⟨⟨l, e, u⟩, c⟩ := deliver_run as h
  simp only [State.init, List.filterMap_nil, List.nil_append, List.countP_nil, Reader.informs] at e c
  rw [e]
  exact ⟨u, by omega⟩

/-- A ping and a pong arrive: one pong and one control message are sent. -/
example : (match runActs ⟨1000, 10⟩ (State.init 0) [.start true, .deliver (.ping 100 7) .ok, .deliver (.pong 200 1) .ok, .reader .ok,
      .reader .ok] with
    | .ok s => decide (s.out = [.pong 100 7, .control 200 false])
    | _ => false) = true := by decide +kernel

#print axioms KX.C129_answers
#print axioms KX.C129_bytes
#print axioms Handshake.C129_rest
#print axioms Handshake.C129_rest_from
#print axioms C129_negotiation

end Verif.Negotiator
