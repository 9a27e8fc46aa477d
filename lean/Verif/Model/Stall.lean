import Verif.Model.Receive
import Verif.Model.Negotiator
/-!
# The reader of a session, and the negotiator that it starts and feeds

`readerLoop` hands the messages of a packet to their handlers one after another (session.go:901-950, 1074-1080). One of them
is the negotiator, which is there from `Start` on (session.go:609-628, 2044-2056); and it is the reader, too, that starts the
negotiation: a message of the key exchange that completes the first exchange calls `onKeyExchangeSuccess`
(key_exchanger.go:466-476, 489-520; session.go:2058-2071).

What is simplified
* Whether a message completes a key exchange is an input, and so are the keys of the session at the time of a packet.
* An undecryptable packet does not end the session here (see C168), nor does DetachOnMessagesCount (C49). Messages for other
  handlers and for `Read` are passed over (see C65 about those that nobody reads).
* The session is Established when the negotiator calls `okFunc` (session.go:2020-2028).
-/
namespace Verif.Stall
open Verif.Headers

structure Cfg where
  rc : Receive.Cfg
  env : Receive.Env
  neg : Negotiator.Cfg
  /-- `isEnabled` (negotiator.go:148-160) -/
  enabled : Bool
  /-- SHA-512 -/
  sha : Bytes → Bytes

structure State where
  rd : Receive.Reader
  /-- messages of the current packet that are still to be handled -/
  queue : List (W32 × Bytes)
  neg : Negotiator.State

def State.init (cfg : Cfg) (size timeout : Int) : State := ⟨Receive.Reader.init cfg.rc size, [], Negotiator.State.init timeout⟩

inductive Act where
  /-- a packet is read -/
  | packet (keys : Receive.Keys) (p : Bytes)
  /-- the next message is handled; `w`: what writing an answer gives; `success`: it completes a key exchange -/
  | message (w : Negotiator.Write) (success : Bool)
  /-- a step of the negotiator -/
  | neg (a : Negotiator.Act)

/-- The messages that have a handler. -/
def handled : List Receive.Event → List (W32 × Bytes)
  | [] => []
  | .handled t b :: es => (t, b) :: handled es
  | _ :: es => handled es

/-- Steps of the negotiator that are not calls by the reader. -/
def ownStep : Negotiator.Act → Bool
  | .start _ => false
  | .deliver _ _ => false
  | _ => true

/-- A message is handled (session.go:1074-1080; 2058-2071). -/
def onMessage (cfg : Cfg) (n : Negotiator.State) (t : W32) (b : Bytes) (w : Negotiator.Write) (success : Bool) :
    Outcome Unit Negotiator.State :=
  if t = typeNegotiation then Negotiator.deliver n (Negotiator.decode cfg.sha b) w
  else if t = typeKeyExchange ∧ success = true ∧ n.started = false then Negotiator.start cfg.neg n cfg.enabled
  else .ok n

/-- One step. The reader goes on when the handler has returned. -/
def step (C : Packet.Crypto) (cfg : Cfg) (s : State) : Act → Outcome Unit State
  | .packet keys p =>
    if s.neg.reader = .idle ∧ s.queue = [] then
      match Receive.readerStep C cfg.rc cfg.env keys s.rd p with
      | .ok (rd, evs, _) => .ok { s with rd := rd, queue := handled evs }
      | .err e => .err e
      | .panic => .panic
      | .block => .block
    else .block
  | .message w success =>
    if s.neg.reader = .idle then
      match s.queue with
      | [] => .block
      | (t, b) :: q =>
        match onMessage cfg s.neg t b w success with
        | .ok n => .ok { s with queue := q, neg := n }
        | .err e => .err e
        | .panic => .panic
        | .block => .block
    else .block
  | .neg a =>
    if ownStep a then
      match Negotiator.step cfg.neg s.neg a with
      | .ok n => .ok { s with neg := n }
      | .err e => .err e
      | .panic => .panic
      | .block => .block
    else .block

def run (C : Packet.Crypto) (cfg : Cfg) : State → List Act → Outcome Unit State
  | s, [] => .ok s
  | s, a :: as =>
    match step C cfg s a with
    | .ok s' => run C cfg s' as
    | .err e => .err e
    | .panic => .panic
    | .block => .block

end Verif.Stall
