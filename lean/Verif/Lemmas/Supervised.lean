import Verif.Lemmas.Callers
import Verif.Lemmas.Threads

/-! # Planning under a mutex of the caller -/

set_option autoImplicit false
set_option linter.unusedSectionVars false

namespace Uni.Threads
open Conc Walker Spec
variable {K : Type} [Field K] [LinearOrder K] [FloorRing K] [Trig K]

/-- What protects an object; `none`: the mutex of the caller. -/
def protector (shared : Mutex) (r : Obj) : Option Mutex :=
  match r with
  | .cfg => some .gen
  | .outputs => some .gen
  | .cubic => if shared = .cubic then some .cubic else none
  | .minJerk => if shared = .minJerk then some .minJerk else none
  | .height => if shared = .height then some .height else none
  | _ => none

theorem protector_none (shared : Mutex) : ∃ r, protector shared r = none := ⟨.feet, rfl⟩

theorem protector_iff {shared l : Mutex} (hl : l ≠ .gen) : (∃ r, protector shared r = some l) → l = shared := by
  rintro ⟨r, h⟩
  unfold protector at h
  split at h <;> first | (split_ifs at h with e; rw [← Option.some.inj h, e]) | (exact absurd (Option.some.inj h).symm hl) | cases h

/-- The rest of `generateFromFootPrints`, with the trajectory generators still to come. -/
def Rest' (shared : Mutex) (ms : List Mutex) (k : Code K) : Prop :=
  ∀ sh : Prop, (shared ∈ ms → ¬ sh) → Phased (protector shared) {.gen} sh k

theorem rest_end' (shared : Mutex) (ms : List Mutex) (x : Reply K) : Rest' shared ms (.release .gen (.ret x) : Code K) := by
  intro sh _
  exact ⟨rfl, by simp [Phased]⟩

theorem rest_sub' {shared : Mutex} {ms : List Mutex} {a : Bool} {l : Mutex} {r : Obj} {g : Val K r → Verdict × Val K r} {k : Code K}
    (hl : l ≠ .gen) (hr : protector shared r = none ∨ protector shared r = some l) (hms : l ∉ ms) (h : Rest' shared ms k) :
    Rest' shared (l :: ms) (sub a l r g k) := by
  intro sh hsh
  unfold sub
  cases a
  · exact h sh fun hm => hsh (List.mem_cons_of_mem _ hm)
  · simp only [if_true]
    have hsh' : shared ∈ ms → ¬ (sh ∨ ∃ q, protector shared q = some l) := by
      rintro hm (h | h)
      · exact hsh (List.mem_cons_of_mem _ hm) h
      · rw [protector_iff hl h] at hms
        exact hms hm
    refine ⟨hl, fun hq => ?_, ?_, fun v => ⟨Set.mem_insert _ _, ?_⟩⟩
    · rw [protector_iff hl hq] at hsh
      exact hsh List.mem_cons_self
    · rcases hr with hr | hr
      · exact Or.inl hr
      · exact Or.inr ⟨l, Set.mem_insert _ _, hr⟩
    · rw [insert_diff_gen hl]
      split
      · exact h _ hsh'
      · exact rest_end' shared ms _ _ hsh'
      · exact rest_end' shared ms _ _ hsh'

theorem protector_cases (shared : Mutex) (r : Obj) (h : r ≠ .cfg) (h' : r ≠ .outputs) :
    protector shared r = none ∨ protector shared r = some (classMutex r) := by
  cases r <;> first | exact absurd rfl h | exact absurd rfl h' | exact Or.inl rfl | skip
  all_goals (unfold protector; dsimp only; split_ifs <;> simp [classMutex])

theorem phase_fromFootPrints (shared : Mutex) (garbage : K) (sort : Sorter K) (f : Handle × Handle) (initTime dT : K) :
    Phased (protector shared) ∅ False (fromFootPrints garbage sort f initTime dT) := by
  refine ⟨by simp, fun _ h => h, Or.inl rfl, fun _ => ⟨Or.inl rfl, fun m => ⟨Or.inr ⟨.gen, Set.mem_insert _ _, rfl⟩, fun c =>
    ⟨Or.inr ⟨.gen, Set.mem_insert _ _, rfl⟩, fun o => ?_⟩⟩⟩⟩
  simp only [insert_empty_eq]
  split
  · exact rest_end' shared [] _ _ (by simp)
  · exact rest_end' shared [] _ _ (by simp)
  · refine ⟨Or.inl rfl, fun a => ?_⟩
    suffices h : Rest' shared [.cubic, .minJerk, .zmp, .dcm, .height] _ from h False (by simp)
    refine rest_sub' (by decide) (protector_cases _ _ (by decide) (by decide)) (by decide) ?_
    refine rest_sub' (by decide) (protector_cases _ _ (by decide) (by decide)) (by decide) ?_
    refine rest_sub' (by decide) (protector_cases _ _ (by decide) (by decide)) (by decide) ?_
    refine rest_sub' (by decide) (protector_cases _ _ (by decide) (by decide)) (by decide) ?_
    exact rest_sub' (by decide) (protector_cases _ _ (by decide) (by decide)) (by decide) (rest_end' _ [] _)

theorem phase_guarded {α : Type} {guard : Obj → Option Mutex} {l : Mutex} {r : Obj} (h : guard r = none ∨ guard r = some l)
    (g : Val K r → α × Val K r) (reply : α → Reply K) : Phased guard ∅ False (guarded l r g reply) := by
  refine ⟨by simp, fun _ h => h, ?_, fun _ => ⟨Set.mem_insert _ _, ?_⟩⟩
  · rcases h with h | h
    · exact Or.inl h
    · exact Or.inr ⟨l, Set.mem_insert _ _, h⟩
  · simp [Phased]

theorem phase_generate {shared : Mutex} (garbage : K) (integ : Integrator K) (fuel : Nat) (sort : Sorter K) (initTime dT endTime : K) (hs : shared ≠ .planner) :
    ∃ p, Erases ∅ (generate garbage integ fuel sort initTime dT endTime) p ∧ Phased (protector shared) ∅ False p := by
  refine ⟨_, erases_first _ _, ?_⟩
  have hpl : ¬ ∃ r, protector shared r = some .planner := fun h => hs (protector_iff (by decide) h).symm
  simp only [read, use, undrop]
  refine ⟨Or.inl rfl, fun f => ⟨Or.inl rfl, fun m => ?_⟩⟩
  simp only [reduceCtorEq, if_false]
  refine ⟨by simp, fun _ h => h, Or.inl rfl, fun p => ⟨Set.mem_insert _ _, ?_⟩⟩
  have hF : (False ∨ ∃ r, protector shared r = some .planner) = False := by simp only [hpl, or_self]
  rw [hF, insert_diff_empty]
  split
  · refine ⟨Or.inl rfl, fun _ => ?_⟩
    simp only [undrop, if_true]
    split
    · exact ⟨Or.inl rfl, fun f => phase_fromFootPrints _ _ _ _ _ _⟩
    · simp [Phased]
  · simp [undrop, Phased]
  · simp [undrop, Phased]

theorem phase_reGenerate {shared : Mutex} (garbage : K) (integ : Integrator K) (fuel : Nat) (sort : Sorter K) (initTime dT endTime : K)
    (q : Gen.Request K) (hs : shared ≠ .planner) (hz : shared ≠ .zmp) (hd : shared ≠ .dcm) :
    ∃ p, Erases ∅ (reGenerate garbage integ fuel sort initTime dT endTime q) p ∧ Phased (protector shared) ∅ False p := by
  refine ⟨_, erases_first _ _, ?_⟩
  have hF : ∀ l, l ≠ .gen → l ≠ shared → (False ∨ ∃ r, protector shared r = some l) = False := by
    intro l h h'
    have : ¬ ∃ r, protector shared r = some l := fun e => h' (protector_iff h e)
    simp only [this, or_self]
  have hlast : ∀ b : Bool, Phased (protector shared) ∅ False
      (undrop .gen (.release .gen (if b then fromMembers garbage sort initTime dT else .ret (.flag false)) : Code K)) := by
    intro b
    simp only [undrop, if_true]
    split
    · exact ⟨Or.inl rfl, fun f => phase_fromFootPrints _ _ _ _ _ _⟩
    · simp [Phased]
  simp only [read, use, undrop]
  refine ⟨Or.inl rfl, fun f => ⟨Or.inl rfl, fun m => ⟨Or.inl rfl, fun a => ?_⟩⟩⟩
  have hrest : ∀ v : Gen.DcmVelocity K, Phased (protector shared) ∅ False (undrop .gen
    (.acquire .planner <|
    use .planner (fun p =>
      match Gen.replan p integ fuel v (m f.1) (m f.2) initTime endTime q with
      | .done b p l r prev => (Gen.ReplanResult.done b p l r prev, p)
      | r => (r, p)) fun r =>
    .release .planner <|
    match r with
    | .done b _ l r prev =>
      use .steps (fun m => ((), write f l r m)) fun _ =>
      let last : Code K := .release .gen (if b then fromMembers garbage sort initTime dT else .ret (.flag false))
      match prev with
      | some s =>
        if a.zmp then
          .acquire .zmp <|
          use .zmp (fun z => ((), { z with state := z.state.setPreviousSteps s.1 s.2 })) fun _ =>
          .release .zmp last
        else last
      | none => last
    | .ub w => .release .gen (.ret (.ub w))
    | .outOfFuel => .release .gen (.ret .outOfFuel) : Code K)) := by
    intro v
    simp only [use, undrop, reduceCtorEq, if_false]
    refine ⟨by simp, fun _ h => h, Or.inl rfl, fun p => ⟨Set.mem_insert _ _, ?_⟩⟩
    rw [hF _ (by decide) hs.symm, insert_diff_empty]
    split
    · refine ⟨Or.inl rfl, fun _ => ?_⟩
      dsimp only
      split
      · split
        · simp only [undrop, reduceCtorEq, if_false]
          refine ⟨by simp, fun _ h => h, Or.inl rfl, fun z => ⟨Set.mem_insert _ _, ?_⟩⟩
          rw [hF _ (by decide) hz.symm, insert_diff_empty]
          exact hlast _
        · exact hlast _
      · exact hlast _
    · simp [undrop, Phased]
    · simp [undrop, Phased]
  dsimp only
  split
  · simp only [undrop, reduceCtorEq, if_false]
    refine ⟨by simp, fun _ h => h, Or.inl rfl, fun d => ⟨Set.mem_insert _ _, ?_⟩⟩
    rw [hF _ (by decide) hd.symm, insert_diff_empty]
    exact hrest _
  · exact hrest _

/-- Every method has a version without the mutexes that it does not need. -/
theorem phase_code {shared : Mutex} (garbage : K) (integ : Integrator K) (fuel : Nat) (sort : Sorter K) {m : Method K} (h : Supervised m)
    (hs : shared ≠ .planner) (hz : shared ≠ .zmp) (hd : shared ≠ .dcm) :
    ∃ p, Erases ∅ (code garbage integ fuel sort m) p ∧ Phased (protector shared) ∅ False p := by
  have hg : ∀ {α : Type} (l : Mutex) (r : Obj) (_ : r ≠ .cfg) (_ : r ≠ .outputs) (_ : classMutex r = l) (g : Val K r → α × Val K r)
      (reply : α → Reply K), ∃ p, Erases ∅ (guarded l r g reply) p ∧ Phased (protector shared) ∅ False p := by
    intro α l r h1 h2 h3 g reply
    exact ⟨_, .refl _, phase_guarded (by rw [← h3]; exact protector_cases _ _ h1 h2) _ _⟩
  cases m with
  | timing o =>
    have h' : unlockedTiming o = false := by cases o <;> first | rfl | exact absurd h id
    simp only [code, h', Bool.false_eq_true, if_false]
    exact ⟨_, .refl _, phase_guarded (Or.inr rfl) _ _⟩
  | planner o =>
    simp only [code]
    split
    · exact ⟨_, .refl _, Or.inl rfl, fun _ => by simp [Phased]⟩
    · refine hg _ _ ?_ ?_ ?_ _ _ <;> decide
  | getOutputs => exact ⟨_, .refl _, phase_guarded (Or.inr rfl) _ _⟩
  | getFootPrints => exact ⟨_, .refl _, Or.inl rfl, fun _ => by simp [Phased]⟩
  | footPrint => exact ⟨_, .refl _, Or.inl rfl, fun _ => by simp [Phased]⟩
  | getSteps => exact ⟨_, .refl _, Or.inl rfl, fun _ => by simp [Phased]⟩
  | startWithLeft => exact ⟨_, .refl _, Or.inl rfl, fun _ => by simp [Phased]⟩
  | fromFootPrints l r t dT => exact ⟨_, .refl _, phase_fromFootPrints _ _ _ _ _ _⟩
  | generate t dT e => exact phase_generate _ _ _ _ _ _ _ hs
  | reGenerate t dT e q => exact phase_reGenerate _ _ _ _ _ _ _ _ hs hz hd
  | _ => refine hg _ _ ?_ ?_ ?_ _ _ <;> decide

theorem twoPhase_lift {α : Type} {guard : Obj → Option Mutex} {l : Mutex} {r : Obj} (h : guard r = some l)
    (g : Val K r → α × Val K r) (reply : α → Reply K) : TwoPhase guard ∅ False (guarded l r g reply).lift := by
  refine ⟨by simp, fun _ h => h, ?_, fun _ => ⟨Set.mem_insert _ _, Or.inr ⟨r, h⟩, ?_⟩⟩
  · rw [h]; exact Set.mem_insert _ _
  · simp

theorem twoPhase_free {shared : Mutex} (garbage : K) (integ : Integrator K) (fuel : Nat) (sort : Sorter K) {m : Method K}
    (h : Free shared m) : TwoPhase (protector shared) ∅ False (code garbage integ fuel sort m).lift := by
  cases m with
  | timing o =>
    have h' : unlockedTiming o = false := by cases o <;> first | rfl | exact absurd h id
    simp only [code, h', Bool.false_eq_true, if_false]
    exact twoPhase_lift rfl _ _
  | getOutputs => exact twoPhase_lift rfl _ _
  | cubic => have h' : shared = .cubic := h; subst h'; exact twoPhase_lift rfl _ _
  | getCubic => have h' : shared = .cubic := h; subst h'; exact twoPhase_lift rfl _ _
  | minJerk => have h' : shared = .minJerk := h; subst h'; exact twoPhase_lift rfl _ _
  | getMinJerk => have h' : shared = .minJerk := h; subst h'; exact twoPhase_lift rfl _ _
  | height => have h' : shared = .height := h; subst h'; exact twoPhase_lift rfl _ _
  | getHeight => have h' : shared = .height := h; subst h'; exact twoPhase_lift rfl _ _
  | _ => exact absurd h id

end Uni.Threads
