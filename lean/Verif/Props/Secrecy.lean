import Verif.Props.Misbinding
import Verif.Lemmas.MutualKeys
/-!
# C139: the exchanged key is known to the two sides only

Any number of sessions of honest identities over a network that an attacker controls: the attacker may deliver anything to
anybody, but cannot make the signatures of the honest identities.
-/
namespace Verif.KX
open Verif.Headers

variable {C : Crypto}

/-! ### The network -/

/-- A session of an honest identity. -/
structure Party where
  cfg : Cfg
  remote : Option Bytes
  state : State

/-- Has an honest identity with the public key `id` sent a message with these signed bytes? -/
def Signed (C : Crypto) (w : List Party) (id body : Bytes) : Prop :=
  ∃ q ∈ w, C.idPub q.cfg.identity = id ∧ ∃ m ∈ q.state.sent, (m.drop 64).take 82 = body

/-- The messages that the attacker can deliver: whatever has a good signature of an honest identity was signed by it. -/
def Deliverable (C : Crypto) (w : List Party) (b : Bytes) : Prop :=
  ∀ q ∈ w, C.verify (C.idPub q.cfg.identity) (b.take 64) ((b.drop 64).take 82) = true →
    Signed C w (C.idPub q.cfg.identity) ((b.drop 64).take 82)

/-- The states of the network. -/
inductive Net (C : Crypto) : List Party → Prop
  | init (w : List Party) : (∀ p ∈ w, p.state = State.init p.remote) → Net C w
  | step {w w1 w2 : List Party} {p : Party} {s' : State} (a : Act) : Net C w → w = w1 ++ p :: w2 →
      (∀ b, a = .recv b → Deliverable C w b) → step C p.cfg p.state a = .ok s' → Net C (w1 ++ { p with state := s' } :: w2)

/-- The public key `r` was made by a session of the honest identity `id`. -/
def MadeBy (C : Crypto) (w : List Party) (r id : Bytes) : Prop :=
  ∃ q ∈ w, C.idPub q.cfg.identity = id ∧ ∃ k ∈ q.state.gens.map (·.1), r = C.pub k

/-- What the network ensures for the keys with signatures. -/
def NetRel (C : Crypto) (w : List Party) (r id : Bytes) : Prop :=
  (∃ q ∈ w, C.idPub q.cfg.identity = id) → MadeBy C w r id

theorem SignedReach.mono {cfg : Cfg} {remote : Option Bytes} {R R' : Bytes → Bytes → Prop} (hRR : ∀ p id, R p id → R' p id)
    {s : State} (h : SignedReach C cfg remote R s) : SignedReach C cfg remote R' s := by
  induction h with
  | init => exact .init
  | step a _ hh hs ih => exact .step a ih (fun b hb hv => hRR _ _ (hh b hb hv)) hs

/-- The honest identities and their keys stay. -/
theorem made_step {w1 w2 : List Party} {p : Party} {s' : State} {a : Act} (hs : step C p.cfg p.state a = .ok s') {r id : Bytes}
    (h : MadeBy C (w1 ++ p :: w2) r id) : MadeBy C (w1 ++ { p with state := s' } :: w2) r id := by
  obtain ⟨q, hq, hid, k, hk, hr⟩ := h
  simp only [List.mem_append, List.mem_cons] at hq
  rcases hq with hq | rfl | hq
  · exact ⟨q, by simp [hq], hid, k, hk, hr⟩
  · exact ⟨{ q with state := s' }, by simp, hid, k, ((histories_step hs).1.map (·.1)).subset hk, hr⟩
  · exact ⟨q, by simp [hq], hid, k, hk, hr⟩

theorem honest_step {w1 w2 : List Party} {p : Party} {s' : State} {id : Bytes}
    (h : ∃ q ∈ w1 ++ { p with state := s' } :: w2, C.idPub q.cfg.identity = id) :
    ∃ q ∈ w1 ++ p :: w2, C.idPub q.cfg.identity = id := by
  obtain ⟨q, hq, hid⟩ := h
  simp only [List.mem_append, List.mem_cons] at hq
  rcases hq with hq | rfl | hq
  · exact ⟨q, by simp [hq], hid⟩
  · exact ⟨p, by simp, hid⟩
  · exact ⟨q, by simp [hq], hid⟩

theorem signed_made {w : List Party} (hw : ∀ q ∈ w, Reachable C q.cfg q.remote q.state) {id body : Bytes}
    (h : Signed C w id body) : MadeBy C w (KxMsg.decode body).kxPublicKey id := by
  obtain ⟨q, hq, hid, m, hm, hb⟩ := h
  obtain ⟨k, hk, x, rfl⟩ := sent_origin (hw q hq) m hm
  refine ⟨q, hq, hid, k, hk, ?_⟩
  rw [← hb, (body_kxMessage (C.pub k) x (C.pub_length k)).1,
    (C08_key_exchange_message.1 ⟨q.cfg.sessionID, C.idPub q.cfg.identity, C.pub k, q.cfg.mode, setIsAnswer 0 x⟩
      ⟨C.idPub_length _, C.pub_length _⟩).2]

theorem net_signed {w : List Party} (h : Net C w) : ∀ p ∈ w, SignedReach C p.cfg p.remote (NetRel C w) p.state := by
  induction h with
  | init w hi => intro p hp; rw [hi p hp]; exact .init
  | @step w w1 w2 p s' a _ he hd hs ih =>
    subst he
    have hmono : ∀ r id, NetRel C (w1 ++ p :: w2) r id → NetRel C (w1 ++ { p with state := s' } :: w2) r id :=
      fun r id hr hh => made_step hs (hr (honest_step hh))
    intro q hq
    simp only [List.mem_append, List.mem_cons] at hq
    rcases hq with hq | rfl | hq
    · exact (ih q (by simp [hq])).mono hmono
    · refine .step a ((ih p (by simp)).mono hmono) ?_ hs
      intro b hb msg id hv hh
      obtain ⟨q', hq', he⟩ : ∃ q ∈ w1 ++ p :: w2, C.idPub q.cfg.identity = id := honest_step hh
      rw [← he] at hv ⊢
      exact made_step hs (signed_made (fun q hq => (ih q hq).reachable) (hd b hb q' hq' hv))
    · exact (ih q (by simp [hq])).mono hmono

/-! ### The property -/

/-- C139: each key of a session whose remote identity is an honest one is made of an ECDH key of its own and one of a session
of the remote identity. -/
theorem C139_origin {w : List Party} (h : Net C w) {p q : Party} (hp : p ∈ w) (hq : q ∈ w)
    (hid : p.state.remoteIdentity = some (C.idPub q.cfg.identity)) {k : Bytes} (hk : some k ∈ p.state.sess.cipherKeys) :
    ∃ a ∈ p.state.gens.map (·.1), ∃ q' ∈ w, C.idPub q'.cfg.identity = C.idPub q.cfg.identity ∧
      ∃ b ∈ q'.state.gens.map (·.1), generateSharedKey C p.cfg.psk (some a) (some (C.pub b)) = .ok k := by
  have hs := net_signed h p hp
  obtain ⟨-, -, -, -, a, -, r, -, ha, hr, hg⟩ := C127_origin_partial hs.reachable hk
  obtain ⟨id, hid', hrel⟩ := (owned hs).acc r hr
  rw [hid] at hid'
  simp only [Option.some.injEq] at hid'
  subst hid'
  obtain ⟨q', hq', he, b, hb, rfl⟩ := hrel ⟨q, hq, rfl⟩
  exact ⟨a, ha, q', hq', he, b, hb, hg⟩

/-- C139: let `K` be what somebody knows or can compute, at whatever time, with whatever identity keys and PSKs.  If a shared
key cannot be computed without one of the two private ECDH keys, a key of the session is known only to who knows a private
ECDH key of this session or of a session of the remote identity. -/
theorem C139_secret {w : List Party} (h : Net C w) (K : Bytes → Prop)
    (hK : ∀ p ∈ w, ∀ q ∈ w, ∀ a ∈ p.state.gens.map (·.1), ∀ b ∈ q.state.gens.map (·.1), ∀ k,
      generateSharedKey C p.cfg.psk (some a) (some (C.pub b)) = .ok k → K k → K a ∨ K b)
    {p q : Party} (hp : p ∈ w) (hq : q ∈ w) (hid : p.state.remoteIdentity = some (C.idPub q.cfg.identity))
    {k : Bytes} (hk : some k ∈ p.state.sess.cipherKeys) (hkk : K k) :
    (∃ a ∈ p.state.gens.map (·.1), K a) ∨
    ∃ q' ∈ w, C.idPub q'.cfg.identity = C.idPub q.cfg.identity ∧ ∃ b ∈ q'.state.gens.map (·.1), K b := by
  obtain ⟨a, ha, q', hq', he, b, hb, hg⟩ := C139_origin h hp hq hid hk
  rcases hK p hp q' hq' a ha b hb k hg hkk with h1 | h1
  · exact .inl ⟨a, ha, h1⟩
  · exact .inr ⟨q', hq', he, b, hb, h1⟩

/-- The remote identity need not be configured: it is the same for one that was adopted from the first message.  But then
it may be the one of the attacker, who knows the key: `[9]` is the private key of the message. -/
theorem C139_first_comer :
    let m : Bytes := kxMessage toy mallory (toy.pub [9]) false
    let s := okState (runActs toy alice (State.init none) (rotate [4] 5 ++ handle m))
    Reachable toy alice none s ∧ s.remoteIdentity = some (toy.idPub mallory.identity) ∧
    s.sess.cipherKeys[0]? = some (some (toy.dh [9] (toy.pub [4]))) :=
  ⟨reachable_run (by decide +kernel), by decide +kernel, by decide +kernel⟩

/-! ### Example: Alice and Bob, and a message of the attacker to both -/

/-- Can the message be delivered? -/
def deliverable (C : Crypto) (w : List Party) (b : Bytes) : Bool :=
  w.all fun q => !C.verify (C.idPub q.cfg.identity) (b.take 64) ((b.drop 64).take 82) ||
    w.any fun q' => decide (C.idPub q'.cfg.identity = C.idPub q.cfg.identity) &&
      q'.state.sent.any fun m => decide ((m.drop 64).take 82 = (b.drop 64).take 82)

theorem deliverable_spec {w : List Party} {b : Bytes} (h : deliverable C w b = true) : Deliverable C w b := by
  intro q hq hv
  have := List.all_eq_true.mp h q hq
  rw [hv] at this
  simp only [Bool.not_true, Bool.false_or, List.any_eq_true, Bool.and_eq_true, decide_eq_true_eq] at this
  obtain ⟨q', hq', he, m, hm, hb⟩ := this
  exact ⟨q', hq', he, m, hm, hb⟩

def mayAct (C : Crypto) (w : List Party) : Act → Bool
  | .recv b => deliverable C w b
  | _ => true

/-- A run of the network: who moves, and how. -/
def netRun (C : Crypto) : List Party → List (Nat × Act) → Option (List Party)
  | w, [] => some w
  | w, (i, a) :: xs =>
    match w[i]? with
    | none => none
    | some p =>
      match step C p.cfg p.state a with
      | .ok s' =>
        if mayAct C w a then
          netRun C (w.take i ++ { p with state := s' } :: w.drop (i + 1)) xs
        else none
      | _ => none

theorem netRun_net : ∀ (xs : List (Nat × Act)) {w w' : List Party}, Net C w → netRun C w xs = some w' → Net C w' := by
  intro xs
  induction xs with
  | nil => intro w w' h hr; simp only [netRun, Option.some.injEq] at hr; subst hr; exact h
  | cons x xs ih =>
    intro w w' h hr
    obtain ⟨i, a⟩ := x
    simp only [netRun] at hr
    split at hr
    · simp at hr
    · rename_i p hp
      split at hr
      · rename_i s' hs
        split at hr
        · rename_i hd
          obtain ⟨hlt, hget⟩ := List.getElem?_eq_some_iff.mp hp
          have he : w = w.take i ++ p :: w.drop (i + 1) := by
            rw [← hget, List.getElem_cons_drop hlt, List.take_append_drop]
          refine ih (.step a h he ?_ hs) hr
          rintro b rfl
          exact deliverable_spec hd
        · simp at hr
      · simp at hr

def netInit : List Party :=
  [⟨alice, some (toy.idPub [8]), State.init (some (toy.idPub [8]))⟩, ⟨bob, some (toy.idPub [7]), State.init (some (toy.idPub [7]))⟩]

def netActs : List (Nat × Act) :=
  (rotate [4] 5).map (0, ·) ++ (rotate [1] 5).map (1, ·) ++
  [(0, .recv claimed), (1, .recv claimed)] ++ (handle alice4).map (1, ·) ++ (handle bob1).map (0, ·)

def netEnd : List Party := (netRun toy netInit netActs).getD []

theorem netEnd_net : Net toy netEnd := by
  have h : (netRun toy netInit netActs).isSome = true := by decide +kernel
  obtain ⟨w, hw⟩ := Option.isSome_iff_exists.mp h
  have : netEnd = w := by unfold netEnd; rw [hw]; rfl
  rw [this]
  refine netRun_net _ (.init netInit ?_) hw
  intro p hp
  simp only [netInit, List.mem_cons, List.not_mem_nil, or_false] at hp
  rcases hp with rfl | rfl <;> rfl

/-- The attacker knows what was sent, both identity keys and keys of its own. -/
def attacker (x : Bytes) : Prop := x ∈ [alice4, bob1, claimed, [7], [8], [9], toy.pub [4], toy.pub [1], toy.dh [9] (toy.pub [4])]

instance (x : Bytes) : Decidable (attacker x) := inferInstanceAs (Decidable (x ∈ _))

/-- The hypotheses hold, for two sides with a common key, which the attacker does not have. -/
example : Net toy netEnd ∧ netEnd.length = 2 ∧
    netEnd.map (·.state.gens.map (·.1)) = [[[4]], [[1]]] ∧
    netEnd.map (·.state.remoteIdentity) = [some (toy.idPub [8]), some (toy.idPub [7])] ∧
    netEnd.map (·.cfg.identity) = [[7], [8]] ∧
    netEnd.map (·.state.sess.cipherKeys[0]?) = [some (some (toy.dh [4] (toy.pub [1]))), some (some (toy.dh [4] (toy.pub [1])))] ∧
    (∀ p ∈ netEnd, ∀ q ∈ netEnd, ∀ a ∈ p.state.gens.map (·.1), ∀ b ∈ q.state.gens.map (·.1), ∀ k,
      generateSharedKey toy p.cfg.psk (some a) (some (toy.pub b)) = .ok k → attacker k → attacker a ∨ attacker b) ∧
    ¬ attacker (toy.dh [4] (toy.pub [1])) := by
  refine ⟨netEnd_net, by decide +kernel, by decide +kernel, by decide +kernel, by decide +kernel, by decide +kernel, ?_,
    by decide +kernel⟩
  intro p hp q hq a ha b hb k hk hkk
  exfalso
  have key : (netEnd.all fun p => netEnd.all fun q => (p.state.gens.map (·.1)).all fun a => (q.state.gens.map (·.1)).all fun b =>
      match generateSharedKey toy p.cfg.psk (some a) (some (toy.pub b)) with
      | .ok k => !decide (attacker k)
      | _ => true) = true := by decide +kernel
  have := List.all_eq_true.mp (List.all_eq_true.mp (List.all_eq_true.mp (List.all_eq_true.mp key p hp) q hq) a ha) b hb
  rw [hk] at this
  simp [hkk] at this

#print axioms C139_origin
#print axioms C139_secret
#print axioms C139_first_comer

end Verif.KX
