import Verif.Model.Receive
/-!
# What the receive properties talk about
-/
namespace Verif.Receive
open Verif.Headers

/-- A message as it travels inside a packet. -/
structure Msg where
  type : W32
  flags : Byte
  payload : Bytes
  deriving DecidableEq, Repr

/-- Wire form: type, length, flags, payload. -/
def Msg.bytes (m : Msg) : Bytes :=
  putLE 4 m.type.toNat ++ (putLE 4 m.payload.length ++ ([m.flags] ++ m.payload))

/-- Representable: the length fits in 32 bits. -/
def Msg.Fits (m : Msg) : Prop := m.payload.length < 2 ^ 32

/-- Not a fragment (flag bit 1 clear). -/
def Msg.Whole (m : Msg) : Prop := m.flags.getLsbD 1 = false

/-- Messages one after another. -/
def stream : List Msg → Bytes
  | [] => []
  | m :: ms => m.bytes ++ stream ms

/-- The bytes do not begin with a complete message. -/
def Incomplete (b : Bytes) : Prop := ¬ ∃ m tail, Msg.Fits m ∧ b = m.bytes ++ tail

/-- Where a message goes: to the handler of its type, else to the queue of its type, else nowhere. -/
def dest (env : Env) (m : Msg) : Event :=
  match env.hasMessenger m.type, env.hasChan m.type with
  | true, _ => .handled m.type m.payload
  | false, true => .queued m.type m.payload
  | false, false => .ignored m.type m.payload

/-- The report for the bytes after the last complete message. -/
def tailReport (tail : Bytes) (evs : List Event) : Prop :=
  if tail = [] then evs = []
  else ∃ n, tail.length < n ∧ evs = [.errTooShort ⟨n, tail.length⟩]

/-- A message of the application (neither key exchange nor negotiation). -/
def Msg.IsApp (m : Msg) : Bool := m.type != 0xFFFFFFFE && m.type != 0xFFFFFFFD

/-- The shortest prefix with `n` application messages, or everything. -/
def upTo : Nat → List Msg → List Msg
  | 0, _ => []
  | _, [] => []
  | n + 1, m :: ms => m :: upTo (if m.IsApp then n else n + 1) ms

/-- What happened with a packet. -/
inductive Verdict where
  /-- could not be decrypted or authenticated -/
  | bad
  /-- decrypted, but its packet ID was refused -/
  | duplicate
  | good
  deriving DecidableEq, Repr

/-- Verdict of the packet `p` for the reader `r`. -/
def verdict (C : Packet.Crypto) (keys : Keys) (r : Reader) (p : Bytes) : Verdict :=
  match Packet.decrypt C keys.aux keys.cipher keys.remote p with
  | .ok (hdr, _) =>
    match r.ids.step (packetIDValue hdr.packetID) with
    | some (_, true) => .good
    | _ => .duplicate
  | _ => .bad

/-- Length of the current run of undecryptable packets (newest first); refused duplicates neither
lengthen nor end it. -/
def streak : List Verdict → Nat
  | [] => 0
  | .bad :: vs => streak vs + 1
  | .duplicate :: vs => streak vs
  | .good :: _ => 0

/-- Number of the latest packets that could not be decrypted, one right after the other (newest first). -/
def strictStreak : List Verdict → Nat
  | .bad :: vs => strictStreak vs + 1
  | _ => 0

/-- Reader states of running sessions, with the verdicts of all packets so far (newest first). -/
inductive Reach (C : Packet.Crypto) (cfg : Cfg) (env : Env) (size : Int) : Reader → List Verdict → Prop
  | init : Reach C cfg env size (Reader.init cfg size) []
  | step {r vs} (keys : Keys) (p : Bytes) {r' evs} : Reach C cfg env size r vs →
      readerStep C cfg env keys r p = .ok (r', evs, true) →
      Reach C cfg env size r' (verdict C keys r p :: vs)

/-- A run of the reader loop over packets (with the keys at that time): for every packet that decrypts
and authenticates, its packet ID and the effects it had. -/
inductive Run (C : Packet.Crypto) (cfg : Cfg) (env : Env) : Reader → List (W64 × List Event) → Prop
  | done {r} : Run C cfg env r []
  | bad {r r' log} (keys : Keys) (p : Bytes) {e evs c} :
      Packet.decrypt C keys.aux keys.cipher keys.remote p = .err e →
      readerStep C cfg env keys r p = .ok (r', evs, c) → Run C cfg env r' log → Run C cfg env r log
  | good {r r' log} (keys : Keys) (p : Bytes) {hdr msgs evs c} :
      Packet.decrypt C keys.aux keys.cipher keys.remote p = .ok (hdr, msgs) →
      readerStep C cfg env keys r p = .ok (r', evs, c) → Run C cfg env r' log →
      Run C cfg env r ((packetIDValue hdr.packetID, evs) :: log)

/-- The packet IDs of the packets that had an effect. -/
def effective (log : List (W64 × List Event)) : List W64 :=
  (log.filter fun e => !e.2.isEmpty).map (·.1)

end Verif.Receive
