import Verif.Lemmas.PacketID
/-! Facts about the ideal filter and its use by a session. -/
namespace Verif.PacketID
open Verif.Spec

/-- State of the ideal filter after a history. -/
def after (window : Nat) : Filter → List W64 → Filter
  | f, [] => f
  | f, id :: ids => after window (f.step window id.toNat).1 ids

theorem step_latest (w : Nat) (f : Filter) (id : Nat) :
    (f.step w id).1.latest = max f.latest id := by
  unfold Filter.step; split <;> (try split) <;> (try split) <;> (try split) <;> simp <;> omega

theorem after_latest (w : Nat) (f : Filter) (ids : List W64) :
    (after w f ids).latest = max f.latest (highest ids) := by
  induction ids generalizing f with
  | nil => simp [after, highest]
  | cons id ids ih => rw [after, ih, step_latest, highest]; omega

theorem step_seen (w : Nat) (f : Filter) (id i : Nat) (h : i ∈ (f.step w id).1.seen) :
    i = id ∨ i ∈ f.seen := by
  unfold Filter.step at h
  split at h
  · split at h <;> simp at h <;> first | exact .inl h | exact h
  · split at h
    · exact .inr h
    · split at h
      · exact .inr h
      · split at h
        · exact .inr h
        · simp at h; exact h

theorem after_seen (w : Nat) (f : Filter) (ids : List W64) (i : Nat)
    (h : i ∈ (after w f ids).seen) : i ∈ f.seen ∨ ∃ id ∈ ids, id.toNat = i := by
  induction ids generalizing f with
  | nil => exact .inl h
  | cons id ids ih =>
    rcases ih _ h with h | ⟨x, hx, rfl⟩
    · rcases step_seen _ _ _ _ h with rfl | h
      · exact .inr ⟨id, by simp, rfl⟩
      · exact .inl h
    · exact .inr ⟨x, by simp [hx], rfl⟩

theorem filter_run_append (w : Nat) (f : Filter) (pre post : List W64) :
    f.run w ((pre ++ post).map (·.toNat)) =
      f.run w (pre.map (·.toNat)) ++ (after w f pre).run w (post.map (·.toNat)) := by
  induction pre generalizing f with
  | nil => simp [Filter.run, after]
  | cons id ids ih => simp [Filter.run, after]; simpa using ih _

theorem filter_run_length (w : Nat) (f : Filter) (ids : List W64) :
    (f.run w (ids.map (·.toNat))).length = ids.length := by
  induction ids generalizing f with
  | nil => rfl
  | cons id ids ih => simp [Filter.run]; simpa using ih _

/-- Jump condition, recursive form. -/
def jumpsOK : Nat → List W64 → Prop
  | _, [] => True
  | l, id :: ids => id.toNat ≤ l + 64 ∧ jumpsOK (max l id.toNat) ids

/-- `acc` (accepted so far) is covered by the memory of the filter. -/
def Covered (w : Nat) (f : Filter) (acc : List W64) : Prop :=
  ∀ a ∈ acc, a.toNat ≤ f.latest ∧ (f.latest - a.toNat < w → a.toNat ∈ f.seen)

theorem nodup_run (w : Nat) (ids : List W64) (f : Filter) (acc : List W64)
    (hc : Covered w f acc) (hj : w ≤ 64 ∨ jumpsOK f.latest ids) :
    (accepted ids (f.run w (ids.map (·.toNat)))).Nodup ∧
      ∀ x ∈ accepted ids (f.run w (ids.map (·.toNat))), x ∉ acc := by
  induction ids generalizing f acc with
  | nil => simp [accepted, Filter.run]
  | cons id ids ih =>
    have hj1 : w ≤ 64 ∨ id.toNat ≤ f.latest + 64 := hj.imp_right fun h => h.1
    have hj2 : w ≤ 64 ∨ jumpsOK (f.step w id.toNat).1.latest ids :=
      hj.imp_right fun h => by rw [step_latest]; exact h.2
    simp only [List.map_cons, Filter.run]
    cases hr : (f.step w id.toNat).2 with
    | false =>
      have hsame : (f.step w id.toNat).1 = f := by
        unfold Filter.step at hr ⊢
        split
        · next h => simp [h] at hr
        · split
          · rfl
          · split
            · rfl
            · split
              · rfl
              · next h1 h2 h3 h4 => simp [h1, h2, h3, h4] at hr
      simp only [accepted]
      exact ih _ acc (by rw [hsame]; exact hc) hj2
    | true =>
      simp only [accepted]
      have hnot : id ∉ acc := by
        intro hm
        obtain ⟨h1, h2⟩ := hc id hm
        unfold Filter.step at hr
        split at hr
        · omega
        · split at hr
          · simp at hr
          · split at hr
            · simp at hr
            · split at hr
              · simp at hr
              · next h5 => exact h5 (h2 (by omega))
      have hc' : Covered w (f.step w id.toNat).1 (id :: acc) := by
        intro a ha
        rw [step_latest]
        rcases List.mem_cons.mp ha with rfl | ha
        · refine ⟨by omega, fun hlt => ?_⟩
          unfold Filter.step at hr ⊢
          split
          · simp
          · next h => 
            simp only [h, if_false] at hr
            split at hr
            · simp at hr
            · split at hr
              · simp at hr
              · split at hr
                · simp at hr
                · next h1 h2 h3 => simp [h1, h2, h3]
        · obtain ⟨h1, h2⟩ := hc a ha
          refine ⟨by omega, fun hlt => ?_⟩
          have hin : a.toNat ∈ f.seen := h2 (by omega)
          unfold Filter.step
          split
          · next hgt =>
            have : ¬ (id.toNat - f.latest > 64) := by
              rcases hj1 with h | h
              · rw [Nat.max_eq_right (by omega)] at hlt; omega
              · omega
            simp [this, hin]
          · split
            · exact hin
            · split
              · exact hin
              · split
                · exact hin
                · simp [hin]
      obtain ⟨hn, hx⟩ := ih _ (id :: acc) hc' hj2
      constructor
      · rw [List.nodup_cons]
        exact ⟨fun h => hx id h (by simp), hn⟩
      · intro x hxm
        rcases List.mem_cons.mp hxm with rfl | h
        · exact hnot
        · exact fun hm => hx x h (by simp [hm])

theorem jumpsOK_of (ids : List W64) (l : Nat)
    (h : ∀ pre id post, ids = pre ++ id :: post → id.toNat ≤ max l (highest pre) + 64) :
    jumpsOK l ids := by
  induction ids generalizing l with
  | nil => trivial
  | cons id ids ih =>
    refine ⟨by simpa [highest] using h [] id ids rfl, ih _ ?_⟩
    intro pre x post he
    have := h (id :: pre) x post (by simp [he])
    rw [highest] at this; omega

theorem nodup_of_smallJumps (w : Nat) (ids : List W64) (h : SmallJumps ids) :
    (accepted ids (Filter.run w { latest := 0, seen := [] } (ids.map (·.toNat)))).Nodup := by
  cases ids with
  | nil => simp [accepted, Filter.run]
  | cons id ids =>
    have hj : jumpsOK (Filter.step w { latest := 0, seen := [] } id.toNat).1.latest ids := by
      apply jumpsOK_of
      intro pre x post he
      have := h (id :: pre) x post (by simp [he]) (by simp)
      rw [step_latest, highest] at *; simpa using this
    simp only [List.map_cons, Filter.run]
    cases hr : (Filter.step w { latest := 0, seen := [] } id.toNat).2 with
    | false =>
      simp only [accepted]
      exact (nodup_run w ids _ [] (by intro a ha; simp at ha) (.inr hj)).1
    | true =>
      simp only [accepted]
      have hstep : (Filter.step w { latest := 0, seen := [] } id.toNat).1 =
          { latest := id.toNat, seen := [id.toNat] } := by
        unfold Filter.step at hr ⊢
        by_cases h0 : id.toNat > 0
        · simp [h0]
        · have : id.toNat = 0 := by omega
          simp [this] at hr
      have := nodup_run w ids _ [id] (by
        intro a ha; simp at ha; subst ha; rw [hstep]; simp) (.inr hj)
      rw [List.nodup_cons]
      exact ⟨fun h => this.2 id h (by simp), this.1⟩

theorem check_run_some (ids : List W64) (w : Nat) (hw : w < 2 ^ 64) (s : Stor) (f : Filter)
    (n : Nat) (h : Repr w s f) :
    Check.run { stor := some s, unexpected := n } ids =
      some (f.run w (ids.map (·.toNat)), n + (f.run w (ids.map (·.toNat))).count false) := by
  induction ids generalizing s f n with
  | nil => simp [Check.run, Filter.run]
  | cons id ids ih =>
    obtain ⟨s', hp, hr⟩ := push_refines w hw s f h id
    cases hv : (f.step w id.toNat).2 with
    | true =>
      simp only [Check.run, Check.step, hp, hv, ih s' _ n hr, List.map_cons, Filter.run,
        Option.map_some]
      simp
    | false =>
      simp only [Check.run, Check.step, hp, hv, ih s' _ (n + 1) hr, List.map_cons, Filter.run,
        Option.map_some]
      simp; omega

theorem check_run_none (ids : List W64) (n : Nat) :
    Check.run { stor := none, unexpected := n } ids = some (ids.map fun _ => true, n) := by
  induction ids with
  | nil => rfl
  | cons id ids ih => simp [Check.run, Check.step, ih]

theorem windowOf_lt (size : Int) (h : size < 2 ^ 63) : windowOf size < 2 ^ 64 := by
  unfold windowOf; split
  · decide
  · split
    · decide
    · omega

/-- What a session with replay protection does, in terms of the ideal filter. -/
theorem receive_eq (size : Int) (h0 : 0 ≤ size) (h : size < 2 ^ 63) (ids : List W64) :
    receive size ids =
      some (Filter.run (windowOf size) { latest := 0, seen := [] } (ids.map (·.toNat)),
        (Filter.run (windowOf size) { latest := 0, seen := [] } (ids.map (·.toNat))).count false) := by
  have hs : ∃ s, storOfOption size = some s ∧
      Repr (windowOf size) s { latest := 0, seen := [] } := by
    unfold storOfOption windowOf
    by_cases h1 : size = 0
    · subst h1; exact ⟨_, rfl, repr_new 256⟩
    · have : size > 0 := by omega
      simp only [h1, if_false, this, if_true]
      by_cases h2 : size = 1
      · subst h2; exact ⟨_, rfl, repr_new 0⟩
      · have : ¬ size.toNat = 1 := by omega
        simp only [h2, this, if_false]
        exact ⟨_, rfl, repr_new size.toNat⟩
  obtain ⟨s, he, hr⟩ := hs
  rw [receive, he, check_run_some ids _ (windowOf_lt size h) s _ 0 hr]
  simp

theorem receive_snoc (size : Int) (h0 : 0 ≤ size) (h : size < 2 ^ 63) (pre : List W64) (id : W64)
    (v : Bool)
    (hv : ((after (windowOf size) { latest := 0, seen := [] } pre).step (windowOf size) id.toNat).2
      = v) :
    ∃ rs n, receive size (pre ++ [id]) = some (rs ++ [v], n) ∧ rs.length = pre.length := by
  refine ⟨Filter.run (windowOf size) { latest := 0, seen := [] } (pre.map (·.toNat)),
    (Filter.run (windowOf size) { latest := 0, seen := [] } ((pre ++ [id]).map (·.toNat))).count
      false, ?_, filter_run_length _ _ _⟩
  rw [receive_eq size h0 h, filter_run_append]
  simp only [List.map_cons, List.map_nil, Filter.run, hv]

theorem latest_init (w : Nat) (pre : List W64) :
    (after w { latest := 0, seen := [] } pre).latest = highest pre := by
  rw [after_latest]; exact Nat.zero_max _

theorem after_snoc (w : Nat) (f : Filter) (pre : List W64) (x : W64) :
    after w f (pre ++ [x]) = ((after w f pre).step w x.toNat).1 := by
  induction pre generalizing f with
  | nil => rfl
  | cons a pre ih => exact ih _

theorem highest_append (a b : List W64) : highest (a ++ b) = max (highest a) (highest b) := by
  induction a with
  | nil => simp [highest]
  | cons x a ih => rw [List.cons_append, highest, highest, ih]; omega

theorem highest_snoc (a : List W64) (x : W64) : highest (a ++ [x]) = max (highest a) x.toNat := by
  rw [highest_append, highest, highest]; omega

theorem snoc_split {pre a b : List W64} {x id : W64} (h : pre ++ [x] = a ++ id :: b) :
    (b = [] ∧ x = id ∧ pre = a) ∨ ∃ c, b = c ++ [x] ∧ pre = a ++ id :: c := by
  rcases List.eq_nil_or_concat b with rfl | ⟨c, y, rfl⟩
  · left
    obtain ⟨h1, h2⟩ := List.append_inj' h rfl
    exact ⟨rfl, by simpa using h2, h1⟩
  · right
    rw [List.concat_eq_append] at h ⊢
    rw [← List.cons_append, ← List.append_assoc] at h
    obtain ⟨h1, h2⟩ := List.append_inj' h rfl
    have : x = y := by simpa using h2
    exact ⟨c, by rw [this], h1⟩

theorem noJump_snoc {old rest : List W64} {x : W64} (h : NoJump old rest)
    (hx : x.toNat ≤ highest (old ++ rest) + 64) : NoJump old (rest ++ [x]) := by
  intro b y c he
  rcases snoc_split he with ⟨-, rfl, rfl⟩ | ⟨c', -, hr⟩
  · exact hx
  · exact h b y c' hr

theorem seenSince_snoc {id x : W64} {ids : List W64} :
    SeenSinceJump id (ids ++ [x]) ↔
      x = id ∨ (SeenSinceJump id ids ∧ x.toNat ≤ highest ids + 64) := by
  constructor
  · rintro ⟨a, b, he, hn⟩
    rcases snoc_split he with ⟨-, rfl, -⟩ | ⟨c, rfl, rfl⟩
    · exact .inl rfl
    · refine .inr ⟨⟨a, c, rfl, ?_⟩, ?_⟩
      · intro b y d hb
        exact hn b y (d ++ [x]) (by rw [hb]; simp)
      · have := hn c x [] rfl
        simpa using this
  · rintro (rfl | ⟨⟨a, b, rfl, hn⟩, hx⟩)
    · exact ⟨ids, [], rfl, fun b x c h => by simp at h⟩
    · exact ⟨a, b ++ [x], by simp, noJump_snoc hn (by simpa using hx)⟩

theorem snocInd {P : List W64 → Prop} (h0 : P []) (h1 : ∀ l x, P l → P (l ++ [x]))
    (l : List W64) : P l := by
  have : ∀ r : List W64, P r.reverse := by
    intro r
    induction r with
    | nil => exact h0
    | cons x r ih => rw [List.reverse_cons]; exact h1 _ _ ih
  simpa using this l.reverse

/-- What a step remembers. -/
theorem step_seen_iff (w : Nat) (f : Filter) (x i : Nat) :
    i ∈ (f.step w x).1.seen ↔
      (i = x ∧ (x > f.latest ∨ (x ≠ f.latest ∧ f.latest - x < w) ∨ i ∈ f.seen)) ∨
      (i ∈ f.seen ∧ x ≤ f.latest + 64) := by
  unfold Filter.step
  by_cases h1 : x > f.latest
  · by_cases h2 : x - f.latest > 64
    · simp [h1, h2]
      intro _; omega
    · have : x ≤ f.latest + 64 := by omega
      simp [h1, h2, this]
  · have h0 : x ≤ f.latest + 64 := by omega
    by_cases h2 : x = f.latest
    · subst h2; simp
    · by_cases h3 : f.latest - x ≥ w
      · simp [h1, h2, h3, h0]; grind
      · by_cases h4 : x ∈ f.seen
        · simp [h1, h2, h3, h4, h0]; grind
        · simp [h1, h2, h3, h4, h0]; grind

theorem latest_seen (w : Nat) (pre : List W64) (hz : highest pre ≠ 0) :
    highest pre ∈ (after w { latest := 0, seen := [] } pre).seen := by
  induction pre using snocInd with
  | h0 => exact absurd rfl hz
  | h1 pre x ih =>
    rw [after_snoc, step_seen_iff, latest_init]
    rw [highest_snoc] at hz ⊢
    by_cases h : x.toNat > highest pre
    · left; exact ⟨by omega, .inl h⟩
    · right; rw [Nat.max_eq_left (by omega)]; exact ⟨ih (by omega), by omega⟩

/-- What the filter remembers of the IDs in its window: those received since the last jump. -/
theorem seen_iff (w : Nat) (pre : List W64) (id : W64) (hz : id ≠ 0)
    (hw : highest pre ≤ id.toNat ∨ highest pre < id.toNat + w) :
    id.toNat ∈ (after w { latest := 0, seen := [] } pre).seen ↔ SeenSinceJump id pre := by
  have hid0 : id.toNat ≠ 0 := fun h => hz (BitVec.eq_of_toNat_eq h)
  induction pre using snocInd with
  | h0 => simp [after, SeenSinceJump]
  | h1 pre x ih =>
    rw [after_snoc, step_seen_iff, latest_init, seenSince_snoc]
    rw [highest_snoc] at hw
    have hx : id.toNat = x.toNat ↔ x = id :=
      ⟨fun h => (BitVec.eq_of_toNat_eq h).symm, fun h => by rw [h]⟩
    by_cases he : x = id
    · subst he
      simp only [true_and, true_or, iff_true]
      left
      by_cases h1 : x.toNat > highest pre
      · exact .inl h1
      · by_cases h2 : x.toNat = highest pre
        · right; right
          have := latest_seen w pre (by omega)
          rwa [← h2] at this
        · right; left; exact ⟨h2, by omega⟩
    · have hne : ¬ id.toNat = x.toNat := fun h => he (hx.mp h)
      simp only [hne, false_and, false_or, he]
      by_cases hj : x.toNat ≤ highest pre + 64
      · simp only [hj, and_true]
        exact ih (by omega)
      · simp [hj]

end Verif.PacketID
