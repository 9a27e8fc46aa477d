import Verif.Spec.SizeGet
/-! # Invariants of the calls of GetEstablishedPayloadSize -/
namespace Verif.SizeGet

theorem agreed_other (limit : W32) (h : List Act) (a : Act) (h1 : ∀ e, a ≠ .setSize e) (h2 : a ≠ .connect) :
    agreed limit (h ++ [a]) = agreed limit h := by
  have : found a = none := by
    cases a with
    | setSize e => exact absurd rfl (h1 e)
    | _ => rfl
  simp only [agreed, List.findSome?_append, List.findSome?_cons, List.findSome?_nil, this, Option.or_none, List.mem_append,
    List.mem_singleton]
  have : (Act.connect = a) = False := by simp [Ne.symm h2]
  simp only [this, or_false]

theorem agreed_size (limit e : W32) (h : List Act) (hn : agreed limit h = none) : agreed limit (h ++ [.setSize e]) = some e := by
  simp only [agreed] at hn ⊢
  cases hf : h.findSome? found with
  | some x => rw [hf] at hn; cases hn
  | none => simp [List.findSome?_append, hf, found]

theorem agreed_connect_none (limit : W32) (h : List Act) (hn : agreed limit h = none) :
    agreed limit (h ++ [.connect]) = some limit := by
  simp only [agreed] at hn ⊢
  cases hf : h.findSome? found with
  | some x => rw [hf] at hn; cases hn
  | none => simp [List.findSome?_append, hf, found]

theorem agreed_connect_some (limit v : W32) (h : List Act) (hn : agreed limit h = some v) :
    agreed limit (h ++ [.connect]) = some v := by
  simp only [agreed] at hn ⊢
  cases hf : h.findSome? found with
  | some x => rw [hf] at hn; simp [List.findSome?_append, hf, found]; simpa using hn
  | none =>
    rw [hf] at hn
    simp only at hn
    split at hn
    · simp [List.findSome?_append, hf, found]; simpa using hn
    · cases hn

structure Inv (limit : W32) (h : List Act) (s : State) : Prop where
  no : s.fin = .no → s.size = limit ∧ agreed limit h = none
  yes : s.fin ≠ .no → agreed limit h = some s.size
  est : s.phase = .established ∨ s.phase = .paused → s.fin = .stated ∨ s.fin = .done
  vals : ∀ v, Call.ret v ∈ s.calls → v = 0 ∨ v = limit ∨ agreed limit h = some v
  clean : Open h → s.phase ≠ .closing ∧ s.phase ≠ .closed ∧ s.ctx ≠ some true ∧
    (Call.known ∈ s.calls → s.fin = .stated ∨ s.fin = .done) ∧ Right limit h s
  started : Act.start ∈ h → s.ctx ≠ none
  ctxEnd : Act.cancel ∈ h → s.ctx = some true

theorem inv_init (limit : W32) : Inv limit [] (State.init limit) :=
  ⟨fun _ => ⟨rfl, rfl⟩, fun h => absurd rfl h, by simp [State.init], by simp [State.init], fun _ => by simp [State.init, Right],
    by simp, by simp⟩

theorem agreed_keep {limit : W32} {h : List Act} {s s' : State} {a : Act} (hi : Inv limit h s) (hs : step s a = some s') {v : W32}
    (hv : agreed limit h = some v) : agreed limit (h ++ [a]) = some v := by
  cases a with
  | connect => exact agreed_connect_some _ _ _ hv
  | setSize e =>
    simp only [step] at hs
    split at hs
    · rename_i c; rw [(hi.no c.2).2] at hv; cases hv
    · cases hs
  | _ => rw [agreed_other _ _ _ (by simp) (by simp)]; exact hv

theorem callStep_ret {s : State} {zero : Bool} {c : Call} {v : W32} (h : callStep s zero c = some (.ret v)) :
    (c = .known ∧ v = s.size) ∨ (c = .waiting ∧ ((s.fin = .done ∧ v = s.size) ∨ (s.ctx = some true ∧ v = 0))) := by
  cases c with
  | start => simp only [callStep] at h; split at h <;> cases h
  | known => simp only [callStep, Option.some.injEq, Call.ret.injEq] at h; exact .inl ⟨rfl, h.symm⟩
  | waiting =>
    right
    refine ⟨rfl, ?_⟩
    simp only [callStep] at h
    split at h
    · cases h
    · rename_i hc
      split at h
      · rename_i c; simp only [Option.some.injEq, Call.ret.injEq] at h; exact .inl ⟨c.1, h.symm⟩
      · simp only [Option.some.injEq, Call.ret.injEq] at h; exact .inr ⟨hc, h.symm⟩
    · split at h
      · rename_i c; simp only [Option.some.injEq, Call.ret.injEq] at h; exact .inl ⟨c, h.symm⟩
      · cases h
  | ret _ => cases h
  | panic => cases h

theorem callStep_known {s : State} {zero : Bool} {c : Call} (h : callStep s zero c = some .known) :
    s.phase = .established ∨ s.phase = .closing := by
  cases c with
  | start => simp only [callStep] at h; split at h <;> simp_all
  | known => cases h
  | waiting => simp only [callStep] at h; split at h <;> (try split at h) <;> cases h
  | ret _ => cases h
  | panic => cases h

theorem set_calls (s : State) (p : Phase) (l : List Phase) :
    (s.set p l).calls = s.calls ∧ (s.set p l).fin = s.fin ∧ (s.set p l).size = s.size ∧ (s.set p l).ctx = s.ctx := by
  simp only [State.set]; split <;> simp

theorem set_phase (s : State) (p : Phase) (l : List Phase) :
    (s.set p l).phase = p ∧ s.phase ∉ l ∨ (s.set p l).phase = s.phase ∧ s.phase ∈ l := by
  simp only [State.set]; split <;> simp_all

theorem open_snoc {h : List Act} {a : Act} (ho : Open (h ++ [a])) : Open h ∧ a ≠ .close ∧ a ≠ .cancel ∧ a ≠ .closed := by
  simp only [Open, List.mem_append, List.mem_singleton, not_or] at ho
  exact ⟨⟨ho.1.1, ho.2.1.1, ho.2.2.1⟩, Ne.symm ho.1.2, Ne.symm ho.2.1.2, Ne.symm ho.2.2.2⟩

theorem inv_frame {limit : W32} {h : List Act} {s s' : State} {a : Act} (hi : Inv limit h s) (ha : agreed limit (h ++ [a]) = agreed limit h)
    (hsz : s'.size = s.size) (hf : s'.fin = s.fin ∨ (s.fin = .stated ∧ s'.fin = .done)) (hc : s'.calls = s.calls)
    (hp : s'.phase = .established ∨ s'.phase = .paused → s.phase = .established ∨ s.phase = .paused)
    (ho : Open (h ++ [a]) → s.phase ≠ .closing → s.phase ≠ .closed → s.ctx ≠ some true →
      s'.phase ≠ .closing ∧ s'.phase ≠ .closed ∧ s'.ctx ≠ some true)
    (hst : Act.start ∈ h ++ [a] → s'.ctx ≠ none) (hca : Act.cancel ∈ h ++ [a] → s'.ctx = some true) : Inv limit (h ++ [a]) s' := by
  obtain ⟨i1, i2, i3, i4, i5, i6, i7⟩ := hi
  have hlate : s.fin = .stated ∨ s.fin = .done → s'.fin = .stated ∨ s'.fin = .done := by
    rcases hf with e | ⟨-, e⟩ <;> rw [e]
    · exact id
    · exact fun _ => .inr rfl
  refine ⟨?_, ?_, fun hp' => hlate (i3 (hp hp')), by rw [hc, ha]; exact i4, fun o => ?_, hst, hca⟩
  · intro hn
    rcases hf with e | ⟨-, e⟩
    · rw [e] at hn; rw [hsz, ha]; exact i1 hn
    · rw [e] at hn; cases hn
  · intro hn
    rw [hsz, ha]
    rcases hf with e | ⟨e, -⟩
    · rw [e] at hn; exact i2 hn
    · exact i2 (by rw [e]; simp)
  · obtain ⟨a1, a2, a3, a4, a5⟩ := i5 (open_snoc o).1
    obtain ⟨b1, b2, b3⟩ := ho o a1 a2 a3
    exact ⟨b1, b2, b3, by rw [hc]; exact fun hk => hlate (a4 hk), by simp only [Right, hc, ha]; exact a5⟩

theorem mem_set {l : List Call} {i : Nat} {c x : Call} (h : x ∈ l.set i c) : x = c ∨ x ∈ l := by
  rcases List.mem_or_eq_of_mem_set h with h | h
  · exact .inr h
  · exact .inl h

theorem inv_step {limit : W32} {h : List Act} {s s' : State} {a : Act} (hi : Inv limit h s) (hs : step s a = some s') :
    Inv limit (h ++ [a]) s' := by
  have keep : ∀ {v}, agreed limit h = some v → agreed limit (h ++ [a]) = some v := fun hv => agreed_keep hi hs hv
  have st : a ≠ .start → Act.start ∈ h ++ [a] → s.ctx ≠ none := by
    intro ha hm
    rcases List.mem_append.mp hm with hm | hm
    · exact hi.started hm
    · exact absurd (List.mem_singleton.mp hm).symm ha
  have ca : a ≠ .cancel → Act.cancel ∈ h ++ [a] → s.ctx = some true := by
    intro ha hm
    rcases List.mem_append.mp hm with hm | hm
    · exact hi.ctxEnd hm
    · exact absurd (List.mem_singleton.mp hm).symm ha
  cases a with
  | start =>
    simp only [step] at hs
    split at hs
    · rename_i hc
      cases hs
      refine inv_frame hi (agreed_other _ _ _ (by simp) (by simp)) rfl (.inl rfl) rfl id (fun _ a b _ => ⟨a, b, by simp⟩)
        (fun _ => by simp) (fun hm => ?_)
      have := ca (by simp) hm
      rw [hc] at this; cases this
    · cases hs
  | exchange =>
    simp only [step] at hs
    split at hs
    · rename_i hc
      cases hs
      obtain ⟨e1, e2, e3, e4⟩ := set_calls s .keyExchanging [.closing, .closed]
      have e5 := set_phase s .keyExchanging [.closing, .closed]
      refine inv_frame hi (agreed_other _ _ _ (by simp) (by simp)) e3 (.inl e2) e1 ?_ ?_ ?_ ?_
      · intro hp; rcases e5 with ⟨e5, -⟩ | ⟨e5, -⟩ <;> rw [e5] at hp
        · simp at hp
        · exact hp
      · intro _ a b c
        rw [e4]
        rcases e5 with ⟨e5, -⟩ | ⟨e5, -⟩ <;> rw [e5]
        · exact ⟨by simp, by simp, c⟩
        · exact ⟨a, b, c⟩
      · rw [e4]; exact st (by simp)
      · rw [e4]; exact ca (by simp)
    · cases hs
  | exchanged =>
    simp only [step] at hs
    split at hs
    · cases hs
    · cases hs
      obtain ⟨e1, e2, e3, e4⟩ := set_calls s .negotiating [.closed, .closing, .new, .established, .negotiating]
      have e5 := set_phase s .negotiating [.closed, .closing, .new, .established, .negotiating]
      refine inv_frame hi (agreed_other _ _ _ (by simp) (by simp)) e3 (.inl e2) e1 ?_ ?_ ?_ ?_
      · intro hp; rcases e5 with ⟨e5, -⟩ | ⟨e5, -⟩ <;> rw [e5] at hp
        · simp at hp
        · exact hp
      · intro _ a b c
        rw [e4]
        rcases e5 with ⟨e5, -⟩ | ⟨e5, -⟩ <;> rw [e5]
        · exact ⟨by simp, by simp, c⟩
        · exact ⟨a, b, c⟩
      · rw [e4]; exact st (by simp)
      · rw [e4]; exact ca (by simp)
  | setSize e =>
    simp only [step] at hs
    split at hs
    · rename_i hc
      cases hs
      have hn := (hi.no hc.2).2
      have ha := agreed_size limit e h hn
      refine ⟨by simp, fun _ => ha, fun hp => ?_, fun v hv => ?_, fun o => ?_, st (by simp), ca (by simp)⟩
      · have := hi.est hp; rw [hc.2] at this; simp at this
      · exact (hi.vals v hv).imp_right (·.imp_right keep)
      · obtain ⟨a1, a2, a3, a4, a5⟩ := hi.clean (open_snoc o).1
        refine ⟨a1, a2, a3, fun hk => ?_, fun v hv => keep (a5 v hv)⟩
        have := a4 hk; rw [hc.2] at this; simp at this
    · cases hs
  | connect =>
    simp only [step] at hs
    split at hs
    · rename_i hc
      cases hs
      obtain ⟨e1, e2, e3, e4⟩ := set_calls s .established [.closed, .closing, .new, .established]
      have e5 := set_phase s .established [.closed, .closing, .new, .established]
      refine ⟨by simp, fun _ => ?_, fun _ => .inl rfl, fun v hv => ?_, fun o => ?_, ?_, ?_⟩
      · simp only [e3]
        rcases hc.2.2 with e | e
        · rw [(hi.no e).1]; exact agreed_connect_none _ _ (hi.no e).2
        · exact agreed_connect_some _ _ _ (hi.yes (by rw [e]; simp))
      · simp only [e1] at hv
        exact (hi.vals v hv).imp_right (·.imp_right keep)
      · obtain ⟨a1, a2, a3, a4, a5⟩ := hi.clean (open_snoc o).1
        simp only [Right, e1, e4]
        refine ⟨?_, ?_, a3, fun _ => .inl trivial, fun v hv => keep (a5 v hv)⟩
        all_goals rcases e5 with ⟨e5, -⟩ | ⟨e5, -⟩ <;> rw [e5] <;> simp_all
      · simp only [e4]; exact st (by simp)
      · simp only [e4]; exact ca (by simp)
    · cases hs
  | connected =>
    simp only [step] at hs
    split at hs
    · rename_i hc
      cases hs
      exact inv_frame hi (agreed_other _ _ _ (by simp) (by simp)) rfl (.inr ⟨hc, rfl⟩) rfl id (fun _ a b c => ⟨a, b, c⟩)
        (st (by simp)) (ca (by simp))
    · cases hs
  | pause on =>
    simp only [step] at hs
    split at hs <;> split at hs
    · rename_i hc
      cases hs
      exact inv_frame hi (agreed_other _ _ _ (by simp) (by simp)) rfl (.inl rfl) rfl (fun _ => .inl hc) (fun _ a b c => ⟨by simp, by simp, c⟩)
        (st (by simp)) (ca (by simp))
    · cases hs
    · rename_i hc
      cases hs
      exact inv_frame hi (agreed_other _ _ _ (by simp) (by simp)) rfl (.inl rfl) rfl (fun _ => .inr hc) (fun _ a b c => ⟨by simp, by simp, c⟩)
        (st (by simp)) (ca (by simp))
    · cases hs
  | close =>
    simp only [step, Option.some.injEq] at hs
    subst hs
    obtain ⟨e1, e2, e3, e4⟩ := set_calls s .closing [.closed]
    have e5 := set_phase s .closing [.closed]
    refine inv_frame hi (agreed_other _ _ _ (by simp) (by simp)) e3 (.inl e2) e1 ?_ (fun o => absurd rfl (open_snoc o).2.1) ?_ ?_
    · intro hp; rcases e5 with ⟨e5, -⟩ | ⟨e5, -⟩ <;> rw [e5] at hp
      · simp at hp
      · exact hp
    · rw [e4]; exact st (by simp)
    · rw [e4]; exact ca (by simp)
  | cancel =>
    simp only [step] at hs
    split at hs
    · cases hs
    · cases hs
      exact inv_frame hi (agreed_other _ _ _ (by simp) (by simp)) rfl (.inl rfl) rfl id (fun o => absurd rfl (open_snoc o).2.2.1)
        (fun _ => by simp) (fun _ => rfl)
  | closed =>
    simp only [step] at hs
    split at hs
    · cases hs
    · cases hs
      exact inv_frame hi (agreed_other _ _ _ (by simp) (by simp)) rfl (.inl rfl) rfl (by simp) (fun o => absurd rfl (open_snoc o).2.2.2)
        (st (by simp)) (ca (by simp))
  | get =>
    simp only [step, Option.some.injEq] at hs
    subst hs
    have ha := agreed_other limit h .get (by simp) (by simp)
    refine ⟨by rw [ha]; exact hi.no, by rw [ha]; exact hi.yes, hi.est, fun v hv => ?_, fun o => ?_, st (by simp), ca (by simp)⟩
    · simp only [List.mem_append, List.mem_singleton, reduceCtorEq, or_false] at hv
      rw [ha]; exact hi.vals v hv
    · obtain ⟨a1, a2, a3, a4, a5⟩ := hi.clean (open_snoc o).1
      refine ⟨a1, a2, a3, fun hk => ?_, fun v hv => ?_⟩
      · simp only [List.mem_append, List.mem_singleton, reduceCtorEq, or_false] at hk; exact a4 hk
      · simp only [List.mem_append, List.mem_singleton, reduceCtorEq, or_false] at hv; rw [ha]; exact a5 v hv
  | go i zero =>
    have ha := agreed_other limit h (.go i zero) (by simp) (by simp)
    simp only [step] at hs
    split at hs
    · rename_i c hci
      have hm : c ∈ s.calls := List.mem_of_getElem? hci
      split at hs
      · rename_i c' hcs
        cases hs
        have hsize : s.fin ≠ .no ∨ s.size = limit := by
          by_cases e : s.fin = .no
          · exact .inr (hi.no e).1
          · exact .inl e
        refine ⟨by rw [ha]; exact hi.no, by rw [ha]; exact hi.yes, hi.est, fun v hv => ?_, fun o => ?_, st (by simp), ca (by simp)⟩
        · rw [ha]
          rcases mem_set hv with e | hv
          · rw [← e] at hcs
            rcases callStep_ret hcs with ⟨-, e⟩ | ⟨-, ⟨-, e⟩ | ⟨-, e⟩⟩
            · rcases hsize with hz | hz
              · exact .inr (.inr (e ▸ hi.yes hz))
              · exact .inr (.inl (e.trans hz))
            · rcases hsize with hz | hz
              · exact .inr (.inr (e ▸ hi.yes hz))
              · exact .inr (.inl (e.trans hz))
            · exact .inl e
          · exact hi.vals v hv
        · obtain ⟨a1, a2, a3, a4, a5⟩ := hi.clean (open_snoc o).1
          refine ⟨a1, a2, a3, fun hk => ?_, fun v hv => ?_⟩
          · rcases mem_set hk with e | hk
            · rw [← e] at hcs
              rcases callStep_known hcs with e | e
              · exact hi.est (.inl e)
              · exact absurd e a1
            · exact a4 hk
          · rw [ha]
            rcases mem_set hv with e | hv
            · rw [← e] at hcs
              rcases callStep_ret hcs with ⟨e', e⟩ | ⟨-, ⟨e', e⟩ | ⟨e', -⟩⟩
              · rw [e]
                exact hi.yes (by rcases a4 (e' ▸ hm) with e | e <;> rw [e] <;> simp)
              · rw [e]; exact hi.yes (by rw [e']; simp)
              · exact absurd e' a3
            · exact a5 v hv
      · cases hs
    · cases hs

theorem run_inv {limit : W32} : ∀ {acts h : List Act} {s s' : State}, Inv limit h s → run s acts = some s' → Inv limit (h ++ acts) s'
  | [], h, s, s', hi, hr => by cases hr; simpa using hi
  | a :: acts, h, s, s', hi, hr => by
    simp only [run] at hr
    split at hr
    · rename_i s1 h1
      have := run_inv (inv_step hi h1) hr
      simpa using this
    · cases hr

/-- No call has panicked, and the session has been started. -/
def Sound (s : State) : Prop := s.ctx ≠ none ∧ Call.panic ∉ s.calls

theorem sound_step {s s' : State} {a : Act} (hi : Sound s) (hs : step s a = some s') : Sound s' := by
  obtain ⟨h1, h2⟩ := hi
  cases a with
  | go i zero =>
    simp only [step] at hs
    split at hs
    · rename_i c hci
      split at hs
      · rename_i c' hcs
        cases hs
        refine ⟨h1, fun hm => ?_⟩
        rcases mem_set hm with e | hm
        · subst e
          cases c with
          | start => simp only [callStep] at hcs; split at hcs <;> cases hcs
          | known => cases hcs
          | waiting =>
            simp only [callStep] at hcs
            split at hcs
            · rename_i e; exact h1 e
            · split at hcs <;> cases hcs
            · split at hcs <;> cases hcs
          | ret _ => cases hcs
          | panic => cases hcs
        · exact h2 hm
      · cases hs
    · cases hs
  | get => simp only [step, Option.some.injEq] at hs; subst hs; exact ⟨h1, by simpa using h2⟩
  | _ =>
    simp only [step] at hs
    repeat' split at hs
    all_goals first
      | cases hs; done
      | (simp only [Option.some.injEq] at hs; subst hs; simp only [Sound, set_calls]; first | exact ⟨h1, h2⟩ | exact ⟨by simp, h2⟩)

theorem run_sound : ∀ {acts : List Act} {s s' : State}, Sound s → run s acts = some s' → Sound s'
  | [], _, _, hi, hr => by cases hr; exact hi
  | a :: acts, s, s', hi, hr => by
    simp only [run] at hr
    split at hr
    · rename_i s1 h1; exact run_sound (sound_step hi h1) hr
    · cases hr

end Verif.SizeGet
