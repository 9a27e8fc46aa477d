import Verif.Spec.Sync
/-!
# Is a list of steps a run of a program?
-/
namespace Verif.Sync

/-- What can be left of `t` after a run of the program. -/
def parse (W : World) : Nat → Nat → Prog → List Ev → List (List Ev)
  | 0, _, _, _ => []
  | n + 1, s, p, t =>
    match p with
    | .skip => [t]
    | .seq p q => ((parse W n s p t).flatMap (parse W n s q)).eraseDups
    | .alt p q => (parse W n s p t ++ parse W n s q t).eraseDups
    | .loop p => (t :: ((parse W n s p t).filter (fun r => r.length < t.length)).flatMap (parse W n s (.loop p))).eraseDups
    | .lock l p => match t with
      | e :: t => if e = .acq s l true then
          (parse W n s p t).flatMap fun r => match r with
            | e :: r => if e = .rel s l true then [r] else []
            | [] => []
        else []
      | [] => []
    | .rlock l p => match t with
      | e :: t => if e = .acq s l false then
          (parse W n s p t).flatMap fun r => match r with
            | e :: r => if e = .rel s l false then [r] else []
            | [] => []
        else []
      | [] => []
    | .acc x w => match t with
      | e :: t => if e = .acc s x w then [t] else []
      | [] => []
    | .wait fs => match t with
      | e :: t => if e = .wait s fs then [t] else []
      | [] => []
    | .set f => match t with
      | e :: t => if e = .set s f then [t] else []
      | [] => []
    | .send => match t with
      | e :: t => if e = .put s then [t] else []
      | [] => []
    | .recv => match t with
      | e :: t => if e = .take (W.peer s) then [t] else []
      | [] => []
    | .user c => parse W n s (W.code s c) t
    | .on s' p => parse W n s' p t

theorem run_of_parse {W : World} : ∀ n s p t r, r ∈ parse W n s p t → ∃ t1, t = t1 ++ r ∧ Run W s p t1
  | 0, _, _, _, _, h => by cases h
  | n + 1, s, p, t, r, h => by
    cases p with
    | skip => simp only [parse, List.mem_singleton] at h; subst h; exact ⟨[], rfl, .skip⟩
    | seq p q =>
      simp only [parse, List.mem_eraseDups, List.mem_flatMap] at h
      obtain ⟨r1, h1, h2⟩ := h
      obtain ⟨t1, rfl, g1⟩ := run_of_parse n _ _ _ _ h1
      obtain ⟨t2, rfl, g2⟩ := run_of_parse n _ _ _ _ h2
      exact ⟨t1 ++ t2, by simp, .seq g1 g2⟩
    | alt p q =>
      simp only [parse, List.mem_eraseDups, List.mem_append] at h
      rcases h with h | h
      · obtain ⟨t1, rfl, h1⟩ := run_of_parse n _ _ _ _ h
        exact ⟨t1, rfl, .left h1⟩
      · obtain ⟨t1, rfl, h1⟩ := run_of_parse n _ _ _ _ h
        exact ⟨t1, rfl, .right h1⟩
    | loop p =>
      simp only [parse, List.mem_eraseDups, List.mem_cons, List.mem_flatMap, List.mem_filter] at h
      rcases h with rfl | ⟨r1, ⟨h1, -⟩, h2⟩
      · exact ⟨[], rfl, .stop⟩
      · obtain ⟨t1, rfl, g1⟩ := run_of_parse n _ _ _ _ h1
        obtain ⟨t2, rfl, g2⟩ := run_of_parse n _ _ _ _ h2
        exact ⟨t1 ++ t2, by simp, .again g1 g2⟩
    | lock l p =>
      simp only [parse] at h
      split at h
      · split at h
        · next e t he =>
          subst he
          obtain ⟨r1, h1, h2⟩ := List.mem_flatMap.1 h
          obtain ⟨t1, rfl, g1⟩ := run_of_parse n _ _ _ _ h1
          split at h2
          · split at h2
            · next he =>
              simp only [List.mem_singleton] at h2
              subst h2 he
              exact ⟨_, by simp, .lock g1⟩
            · cases h2
          · cases h2
        · cases h
      · cases h
    | rlock l p =>
      simp only [parse] at h
      split at h
      · split at h
        · next e t he =>
          subst he
          obtain ⟨r1, h1, h2⟩ := List.mem_flatMap.1 h
          obtain ⟨t1, rfl, g1⟩ := run_of_parse n _ _ _ _ h1
          split at h2
          · split at h2
            · next he =>
              simp only [List.mem_singleton] at h2
              subst h2 he
              exact ⟨_, by simp, .rlock g1⟩
            · cases h2
          · cases h2
        · cases h
      · cases h
    | acc x w =>
      simp only [parse] at h
      split at h
      · split at h
        · next he => simp only [List.mem_singleton] at h; subst h he; exact ⟨[_], rfl, .acc⟩
        · cases h
      · cases h
    | wait fs =>
      simp only [parse] at h
      split at h
      · split at h
        · next he => simp only [List.mem_singleton] at h; subst h he; exact ⟨[_], rfl, .wait⟩
        · cases h
      · cases h
    | set f =>
      simp only [parse] at h
      split at h
      · split at h
        · next he => simp only [List.mem_singleton] at h; subst h he; exact ⟨[_], rfl, .set⟩
        · cases h
      · cases h
    | send =>
      simp only [parse] at h
      split at h
      · split at h
        · next he => simp only [List.mem_singleton] at h; subst h he; exact ⟨[_], rfl, .send⟩
        · cases h
      · cases h
    | recv =>
      simp only [parse] at h
      split at h
      · split at h
        · next he => simp only [List.mem_singleton] at h; subst h he; exact ⟨[_], rfl, .recv⟩
        · cases h
      · cases h
    | user c =>
      simp only [parse] at h
      obtain ⟨t1, rfl, h1⟩ := run_of_parse n _ _ _ _ h
      exact ⟨t1, rfl, .user h1⟩
    | on s' p =>
      simp only [parse] at h
      obtain ⟨t1, rfl, h1⟩ := run_of_parse n _ _ _ _ h
      exact ⟨t1, rfl, .on h1⟩

/-- The list of steps is a run. -/
def isRun (W : World) (s : Nat) (p : Prog) (t : List Ev) : Bool := (parse W 60 s p t).contains []

theorem isRun_run {W : World} {s : Nat} {p : Prog} {t : List Ev} (h : isRun W s p t = true) : Run W s p t := by
  simp only [isRun, List.contains_eq_mem, decide_eq_true_eq] at h
  obtain ⟨t1, h1, h2⟩ := run_of_parse _ _ _ _ _ h
  rw [List.append_nil] at h1
  exact h1 ▸ h2

open Calls in
theorem threads_of {W : World} {roles : List (Nat × Role)} {runs : List (List Ev)} (hl : roles.length = runs.length)
    (hr : (roles.zip runs).all (fun x => isRun W x.1.1 x.1.2.prog x.2) = true)
    (hu : ∀ x ∈ roles, ∀ p, x.2 = .user p → UserCode (fun _ => true) p)
    (ho : ∀ r ∈ roles, r.2.single = true → roles.count r = 1) : Threads W roles runs := by
  refine ⟨hl, ?_, fun s p h => hu _ h p rfl, ho⟩
  intro i h1 h2
  rw [List.all_eq_true] at hr
  exact isRun_run (hr (roles[i], runs[i]) (by
    rw [List.mem_iff_getElem]
    exact ⟨i, by simp; omega, by simp⟩))

theorem reachable_sched {cap : Nat → Nat} {init : State} : ∀ (is : List Nat) {st st' : State}, Reachable cap init st →
    runSched cap st is = some st' → Reachable cap init st'
  | [], _, _, h, h' => by cases h'; exact h
  | i :: is, st, st', h, h' => by
    rw [runSched] at h'
    split at h'
    · next st1 hs => exact reachable_sched is (h.step hs) h'
    · cases h'

/-- All of the goroutines run to where they are, as far as their numbers of steps say. -/
def sched (l : List (Nat × Nat)) : List Nat := l.flatMap fun x => List.replicate x.2 x.1

end Verif.Sync
