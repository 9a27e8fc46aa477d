import Verif.Props.EndToEnd
/-!
# C63: what goes wrong on a transport that loses and reorders nothing
-/
namespace Verif.EndToEnd
open Verif.Headers Verif.Packet Verif.Receive

/-- The packets of the pieces of messages: packet ID, chain ID, message, number of the piece. -/
def sendPieces (xs : List (W64 × W64 × Bytes × Nat)) : List Bytes := xs.filterMap fun x =>
  match Send.sendMessages toy ⟨88, true, true⟩ { exNow with packetID := x.1 }
      ⟨false, false, Send.messageBytes 7 2 (pieceMsg x.2.1 7 x.2.2.1 64 x.2.2.2).payload⟩ with
  | .ok out => some out
  | _ => none

/-- Both pieces of each message, one message after the other. -/
def oneByOne : W64 → W64 → List Bytes → List (W64 × W64 × Bytes × Nat)
  | _, _, [] => []
  | id, chain, m :: ms => (id, chain, m, 0) :: (id + 1, chain, m, 1) :: oneByOne (id + 2) (chain + 1) ms

/-- The default options: `MaxChainIDDiff` 8 and `MaxFragmentedMessageSize` 65536 (session.go:481-486). -/
def defaultCfg : Receive.Cfg := ⟨0, 8, 65536, none, 10⟩
/-- Messages of type 7 are put into the queue of `Read`. -/
def readEnv : Env := ⟨fun _ => false, fun t => t == 7, fun _ => false⟩
def peerKeys : Keys := ⟨exNow.aux, [exNow.cipherKey], some exNow.sessionID⟩
def eventsOf : Outcome Unit (Reader × List Event) → List Event
  | .ok (_, evs) => evs
  | _ => []
/-- What is put into the queue of `Read`, if nothing stops the reader. -/
def received (pkts : List Bytes) : List Event :=
  eventsOf (deliver toy defaultCfg readEnv peerKeys (Reader.init defaultCfg 256) pkts)

/-- A message of 120 bytes, then eight of 100. -/
def nineMessages : List Bytes := List.replicate 120 1 :: List.replicate 8 (List.replicate 100 2)

/-- Negation of C63 for one writer: nine messages, one after the other, each in two packets which arrive in order.  The
ninth is delivered with the end of the first one appended to it. -/
theorem C63_violated : (sendPieces (oneByOne 1 1 nineMessages)).length = 18 ∧
    received (sendPieces (oneByOne 1 1 nineMessages)) =
      (nineMessages.take 8).map (.queued 7) ++ [.queued 7 (List.replicate 100 2 ++ List.replicate 20 1)] := by
  refine ⟨by decide +kernel, by decide +kernel⟩

/-- Two messages whose packets alternate, as with two writers at the same time. -/
def alternating : List (W64 × W64 × Bytes × Nat) :=
  [(1, 1, List.replicate 120 1, 0), (2, 2, List.replicate 100 2, 0), (3, 1, List.replicate 120 1, 1), (4, 2, List.replicate 100 2, 1)]

/-- Negation of C63 for two writers: nothing is lost or reordered, and the older message never arrives. -/
theorem C63_violated_concurrent : (sendPieces alternating).length = 4 ∧
    received (sendPieces alternating) = [.queued 7 (List.replicate 100 2)] := by
  refine ⟨by decide +kernel, by decide +kernel⟩

#print axioms C63_violated
#print axioms C63_violated_concurrent

end Verif.EndToEnd
