import Verif.Lemmas.MutualKeys
import Verif.Spec.WrongPSK
/-!
# Lemmas about MutualConfirmationOfIdentity without any packet that can be opened
-/
namespace Verif.Mutual
open Verif.Headers

variable {C : Crypto} {cfg : Cfg}

/-- Nothing was heard from the other side. -/
structure Deaf (s : State) : Prop where
  kxGot : s.kxGot = []
  rwGot : s.rwGot = []
  queue : s.queue = []
  todo : ∀ e ∈ s.todo, isMessage e = false
  established : s.established = false
  reading : s.call ≠ .reading
  call : ∀ ks, s.call ≠ .returned (.keys ks)

theorem accepted_nil {s : State} (hr : Reachable C cfg s) (h : s.kxGot = []) : s.kx.accepted = [] := by
  cases ha : s.kx.accepted with
  | nil => rfl
  | cons y ys =>
    obtain ⟨msg, ⟨id, b, _, hb, _⟩, _⟩ := (seenOK hr).accepted y (by rw [ha]; simp)
    rw [h] at hb; simp at hb

theorem successes_zero {s : State} (hr : Reachable C cfg s) (h : s.kxGot = []) : s.kx.successes = 0 := by
  refine Nat.eq_zero_of_not_pos fun hp => ?_
  obtain ⟨msg, ⟨id, b, _, hb, _⟩, _⟩ := (seenOK hr).successes hp
  rw [h] at hb; simp at hb

theorem readerStep_deaf {s : State} (hr : Reachable C cfg s) (hk : s.kxGot = []) {p : Bytes} (hf : ¬ Familiar C cfg p)
    {rd : Receive.Reader} {evs : List Receive.Event} {go : Bool}
    (h : Receive.readerStep C.pkt cfg.rc (env cfg) (keysOf C cfg s) s.rd p = .ok (rd, evs, go)) {e : Receive.Event}
    (he : e ∈ evs) : isMessage e = false := by
  unfold Receive.readerStep at h
  split at h
  · simp at h
  · simp at h
  · rename_i er hd
    simp only [Outcome.ok.injEq, Prod.mk.injEq] at h
    rw [← h.2.1] at he
    unfold Receive.decryptError at he
    dsimp only at he
    split at he
    · split at he
      · simp only [List.mem_singleton] at he; rw [he]; rfl
      · simp at he
    · simp at he
  · rename_i hdr msgs hd
    exfalso
    simp only [keysOf] at hd
    obtain ⟨_, hid, key, iv, hc, hg, _⟩ := Packet.C13_accept_implies_genuine C.pkt _ _ _ (keysOK hr) p hdr msgs hd
    rcases hc with ⟨hm, hn, _⟩ | ⟨rfl, rfl⟩
    · cases key with
      | none => exact hn rfl
      | some k =>
        obtain ⟨a, y, _, hy, _⟩ := KX.cipherKey_origin (kx_reachable hr) hm
        rw [accepted_nil hr hk] at hy; simp at hy
    · rw [hid] at hg; exact hf hg

theorem got_mono {s s' : State} {a : Act} (h : step C cfg s a = .ok s') :
    (∀ p ∈ s.got, p ∈ s'.got) ∧ (∀ p ∈ s'.got, p ∈ s.got ∨ a = .packet p) := by
  rcases got_grows h with ⟨p, rfl⟩ | h
  · simp only [step] at h
    split at h
    · split at h <;> simp only [Outcome.ok.injEq, reduceCtorEq] at h
      subst h
      refine ⟨fun _ h => List.mem_append_left _ h, fun q hq => ?_⟩
      rcases List.mem_append.1 hq with hq | hq
      · exact .inl hq
      · rw [List.mem_singleton.1 hq]; exact .inr rfl
    · simp at h
  · rw [h]; exact ⟨fun _ h => h, fun _ h => .inl h⟩

theorem out_mono {s s' : State} {a : Act} (h : step C cfg s a = .ok s') : ∀ p ∈ s.out, p ∈ s'.out := by
  intro p hp
  cases a <;> simp only [step, eventStep, readStep] at h <;>
    (repeat' split at h) <;> simp only [Outcome.ok.injEq, reduceCtorEq] at h <;> subst h <;>
    first | exact hp | exact List.mem_append_left _ hp

theorem deaf {s : State} (hr : Reachable C cfg s) (hf : ∀ p ∈ s.got, ¬ Familiar C cfg p) : Deaf s := by
  induction hr with
  | init => constructor <;> simp [State.init]
  | @step s s' a hr hs ih =>
    have d := ih fun p hp => hf p ((got_mono hs).1 p hp)
    have h0 := successes_zero hr d.kxGot
    obtain ⟨d1, d2, d3, d4, d5, d6, d7⟩ := d
    cases a with
    | packet p =>
      simp only [step] at hs
      split at hs
      · split at hs <;> simp only [Outcome.ok.injEq, reduceCtorEq] at hs
        rename_i rd evs go hread
        subst hs
        exact ⟨d1, d2, d3, fun e he => readerStep_deaf hr d1 (hf p (by simp)) hread he, d5, d6, d7⟩
      · simp at hs
    | event =>
      simp only [step] at hs
      split at hs
      · simp at hs
      · rename_i e rest htodo
        have htail : ∀ x ∈ rest, isMessage x = false := fun x hx => d4 x (by rw [htodo]; exact List.mem_cons_of_mem _ hx)
        have hhead := d4 e (by rw [htodo]; simp)
        split at hs
        · unfold eventStep at hs
          split at hs
          · simp [isMessage] at hhead
          · simp [isMessage] at hhead
          all_goals
            simp only [Outcome.ok.injEq] at hs; subst hs
            exact ⟨d1, d2, d3, htail, d5, d6, d7⟩
        · simp at hs
    | kx x pid =>
      simp only [step] at hs
      split at hs
      · simp at hs
      · split at hs <;> simp only [Outcome.ok.injEq, reduceCtorEq] at hs
        subst hs; exact ⟨d1, d2, d3, d4, d5, d6, d7⟩
    | establish => simp [step, h0] at hs
    | readerEnd =>
      simp only [step] at hs
      split at hs <;> simp only [Outcome.ok.injEq, reduceCtorEq] at hs
      subst hs; exact ⟨d1, d2, d3, d4, d5, d6, d7⟩
    | takeKey byCtx =>
      simp only [step] at hs
      (repeat' split at hs) <;> simp only [Outcome.ok.injEq, reduceCtorEq] at hs <;> subst hs <;>
        exact ⟨d1, d2, d3, d4, d5, by simp, by simp⟩
    | send pid ok =>
      simp only [step, d5, if_true] at hs
      split at hs <;> simp at hs
    | writeFail =>
      simp only [step] at hs
      split at hs <;> simp only [Outcome.ok.injEq, reduceCtorEq] at hs <;> subst hs <;>
        exact ⟨d1, d2, d3, d4, d5, by simp, by simp⟩
    | read => simp [step, d6] at hs

end Verif.Mutual
