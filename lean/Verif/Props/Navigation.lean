import Verif.Model.Navigation
import Mathlib.Tactic.Positivity
import Mathlib.Tactic.Linarith
import Mathlib.Tactic.NormNum

/-! # C50, C54, C55: the navigation controller -/

set_option autoImplicit false
set_option linter.unusedSectionVars false

namespace Uni.NavCtrl

section
variable {K : Type*} [Field K] [LinearOrder K] [IsStrictOrderedRing K] [Trig K]

/-- Invariant: a path and the velocities are known, the tracked pose exists. -/
structure Ready (c : NavCtrl K) : Prop where
  index : c.poseIndex < c.path.length
  new_path : c.newPath ≠ none
  eta : c.newPath = some false → c.eta ≠ none
  vel : ∃ v l a, c.maxVel = some (v, l, a) ∧ 0 < v ∧ 0 < l ∧ 0 < a

theorem zeroTolerance_pos : (0 : K) < zeroTolerance := by
  unfold zeroTolerance; positivity

theorem linearSpeed_pos {v l : K} (hv : 0 < v) (hl : 0 < l) (c s : K) : 0 < linearSpeed v l c s := by
  have ht : (0 : K) < zeroTolerance := zeroTolerance_pos
  simp only [linearSpeed]
  split_ifs with h1 h2 h3
  · exact hl
  · exact hv
  · exact div_pos hv (lt_of_lt_of_le ht (not_lt.mp h1))
  · exact div_pos hl (lt_of_lt_of_le ht (not_lt.mp h2))

theorem velocitiesTo_ok {v l a : K} (hv : 0 < v) (hl : 0 < l) (ha : 0 < a) (s g : UState K) :
    ∃ r, velocitiesTo s g (v, l, a) = .ok r := by
  simp only [velocitiesTo]
  rw [if_neg (by
    rintro (h | h)
    · exact (linearSpeed_pos hv hl _ _).ne' h
    · exact ha.ne' h)]
  split_ifs <;> exact ⟨_, rfl⟩

theorem Ready.nextPose {c : NavCtrl K} (h : c.Ready) : c.nextPose = .ok none ∨
    ∃ c', c.nextPose = .ok (some c') ∧ c'.path = c.path ∧ c.poseIndex ≤ c'.poseIndex ∧
      c'.poseIndex ≤ c.poseIndex + 1 ∧ c'.poseIndex < c'.path.length ∧ c'.newPath = some false ∧
      c'.maxVel = c.maxVel ∧ c'.state = c.state := by
  unfold NavCtrl.nextPose
  match hn : c.newPath with
  | none => exact absurd hn h.new_path
  | some true =>
    right
    exact ⟨_, rfl, rfl, le_refl _, by simp, h.index, rfl, rfl, rfl⟩
  | some false =>
    match he : c.eta with
    | none => exact absurd he (h.eta hn)
    | some e =>
      simp only
      have hi := h.index
      split_ifs with h1 h2
      · left; rfl
      · right
        refine ⟨_, rfl, rfl, by simp, le_refl _, ?_, rfl, rfl, rfl⟩
        simp only
        omega
      · right
        exact ⟨_, rfl, rfl, le_refl _, by simp, hi, hn, rfl, rfl⟩

theorem Ready.compute {c : NavCtrl K} (h : c.Ready) (hf : c.state ≠ none) :
    ∃ c', c.computeDesiredVelocities = .ok c' ∧
    c'.Ready ∧ c'.state = c.state ∧ c'.path = c.path ∧ c.poseIndex ≤ c'.poseIndex ∧
      c'.poseIndex ≤ c.poseIndex + 1 := by
  rcases h.nextPose with h0 | ⟨d, hd, hp, h1, h2, h3, hn, hm, hs⟩
  · refine ⟨{ c with desired := ⟨0, 0, 0⟩ }, by simp [computeDesiredVelocities, h0],
      ⟨h.index, h.new_path, h.eta, h.vel⟩, rfl, rfl, le_refl _, by simp⟩
  · obtain ⟨v, l, a, hv, h4, h5, h6⟩ := h.vel
    obtain ⟨u, hu⟩ := Option.ne_none_iff_exists'.mp hf
    obtain ⟨r, hr⟩ := velocitiesTo_ok h4 h5 h6 u d.path[d.poseIndex]
    refine ⟨{ d with eta := some r.1, desired := r.2 }, ?_, ⟨h3, by simp [hn], by simp, ?_⟩, hs, hp, h1, h2⟩
    · simp [computeDesiredVelocities, hd, List.getElem?_eq_getElem h3, hm, hv, hs, hu, hr]
    · exact ⟨v, l, a, by simp [hm, hv], h4, h5, h6⟩

/-- Without a feedback the evaluation stops at the uninitialised state, or (last pose reached) does not need it. -/
theorem Ready.compute_blind {c : NavCtrl K} (h : c.Ready) (hf : c.state = none) :
    c.computeDesiredVelocities = .ub .uninitialised ∨
    c.computeDesiredVelocities = .ok { c with desired := ⟨0, 0, 0⟩ } := by
  rcases h.nextPose with h0 | ⟨d, hd, hp, h1, h2, h3, hn, hm, hs⟩
  · exact Or.inr (by simp [computeDesiredVelocities, h0])
  · exact Or.inl (by simp [computeDesiredVelocities, hd, List.getElem?_eq_getElem h3, hs, hf])

theorem Ready.setMaxVelocities {c : NavCtrl K} (h : c.Ready) (v l a : K) :
    (c.setMaxVelocities v l a).2.Ready := by
  simp only [NavCtrl.setMaxVelocities]
  split_ifs with h1
  · exact h
  · push Not at h1
    have ht : (0 : K) < zeroTolerance := zeroTolerance_pos
    exact ⟨h.index, h.new_path, h.eta, |v|, |l|, |a|, rfl, lt_of_lt_of_le ht h1.1,
      lt_of_lt_of_le ht h1.2.1, lt_of_lt_of_le ht h1.2.2⟩

theorem setMaxVelocities_path (c : NavCtrl K) (v l a : K) :
    (c.setMaxVelocities v l a).2.path = c.path ∧ (c.setMaxVelocities v l a).2.poseIndex = c.poseIndex := by
  simp only [NavCtrl.setMaxVelocities]
  split_ifs <;> simp

theorem setSaturations_path (c : NavCtrl K) (l a : K) :
    (c.setSaturations l a).2.path = c.path ∧ (c.setSaturations l a).2.poseIndex = c.poseIndex := by
  simp only [NavCtrl.setSaturations]
  split
  · simp
  · have := setMaxVelocities_path { c with base := (c.base.setSaturations l a).2 }
    simp_all

theorem Ready.setSaturations {c : NavCtrl K} (h : c.Ready) (l a : K) : (c.setSaturations l a).2.Ready := by
  simp only [NavCtrl.setSaturations]
  split
  · exact ⟨h.index, h.new_path, h.eta, h.vel⟩
  · rename_i b _
    have hr : ({ c with base := b } : NavCtrl K).Ready := ⟨h.index, h.new_path, h.eta, h.vel⟩
    exact hr.setMaxVelocities _ _ _

/-- Is this call a `setNavigationPath` that is accepted? -/
def Op.newPath : Op K → Bool
  | .setNavigationPath p => decide (2 ≤ p.length)
  | _ => false

theorem setSaturations_state (c : NavCtrl K) (l a : K) : (c.setSaturations l a).2.state = c.state := by
  simp only [NavCtrl.setSaturations, NavCtrl.setMaxVelocities]
  split
  · rfl
  · split_ifs <;> rfl

/-- Every call but the active control evaluation succeeds. -/
theorem Ready.run {c : NavCtrl K} (h : c.Ready) (o : Op K) :
    (∃ c', c.run o = .ok c' ∧ c'.Ready ∧ (c.state ≠ none → c'.state ≠ none)) ∨
    (c.state = none ∧ c.run o = .ub .uninitialised) := by
  have keep : ∀ c' : NavCtrl K, c'.poseIndex = c.poseIndex → c'.path = c.path → c'.newPath = c.newPath →
      c'.eta = c.eta → c'.maxVel = c.maxVel → c'.Ready := fun c' e1 e2 e3 e4 e5 =>
    ⟨by rw [e1, e2]; exact h.index, by rw [e3]; exact h.new_path, by rw [e3, e4]; exact h.eta,
      by rw [e5]; exact h.vel⟩
  cases o with
  | setConstantControl v => exact Or.inl ⟨_, rfl, keep _ rfl rfl rfl rfl rfl, id⟩
  | setInactiveUntil v => exact Or.inl ⟨_, rfl, keep _ rfl rfl rfl rfl rfl, id⟩
  | setNavigationPath p =>
    refine Or.inl ⟨_, rfl, ?_⟩
    simp only [NavCtrl.setNavigationPath]
    split_ifs with h1
    · exact ⟨h, id⟩
    · exact ⟨⟨by simp only; omega, by simp, by simp, h.vel⟩, id⟩
  | setTimeStep dT =>
    refine Or.inl ⟨_, rfl, ?_⟩
    simp only [NavCtrl.setTimeStep]
    split_ifs with h1
    · exact ⟨h, id⟩
    · exact ⟨keep _ rfl rfl rfl rfl rfl, id⟩
  | setSaturations l a =>
    exact Or.inl ⟨_, rfl, h.setSaturations l a, fun hs => by rw [setSaturations_state]; exact hs⟩
  | setSlowWhenSidewaysFactor g => exact Or.inl ⟨_, rfl, keep _ rfl rfl rfl rfl rfl, id⟩
  | setSlowWhenTurnGain g => exact Or.inl ⟨_, rfl, keep _ rfl rfl rfl rfl rfl, id⟩
  | setSlowWhenBackwardFactor g => exact Or.inl ⟨_, rfl, keep _ rfl rfl rfl rfl rfl, id⟩
  | setFeedback t u => exact Or.inl ⟨_, rfl, keep _ rfl rfl rfl rfl rfl, fun _ => by simp [NavCtrl.setFeedback]⟩
  | control =>
    simp only [NavCtrl.run, doUnicycleControl]
    split_ifs with h1
    · exact Or.inl ⟨c, rfl, h, id⟩
    · by_cases hf : c.state = none
      · rcases h.compute_blind hf with h2 | h2
        · exact Or.inr ⟨hf, by simp [h2]⟩
        · exact Or.inl ⟨{ c with desired := ⟨0, 0, 0⟩ }, by rw [h2]; rfl, keep _ rfl rfl rfl rfl rfl, id⟩
      · obtain ⟨c', h2, h3, h4, -⟩ := h.compute hf
        exact Or.inl ⟨c', by simp [h2], h3, fun hs => by rw [h4]; exact hs⟩

theorem Ready.runAll {c : NavCtrl K} (h : c.Ready) (os : List (Op K)) :
    (∃ c', c.runAll os = .ok c' ∧ c'.Ready) ∨ (c.state = none ∧ c.runAll os = .ub .uninitialised) := by
  induction os generalizing c with
  | nil => exact Or.inl ⟨c, rfl, h⟩
  | cons o os ih =>
    rcases h.run o with ⟨c1, h1, h2, h3⟩ | ⟨h1, h2⟩
    · rcases ih h2 with ⟨c2, h4, h5⟩ | ⟨h4, h5⟩
      · exact Or.inl ⟨c2, by simp [NavCtrl.runAll, h1, h4], h5⟩
      · exact Or.inr ⟨by_contra fun hs => h3 hs h4, by simp [NavCtrl.runAll, h1, h5]⟩
    · exact Or.inr ⟨h1, by simp [NavCtrl.runAll, h2]⟩

/-- A call that gives no new path and has a result does not move the index back, nor by more than one pose. -/
theorem run_index {c c' : NavCtrl K} {o : Op K} (h : c.run o = .ok c') (ho : o.newPath = false) :
    c'.path = c.path ∧ c.poseIndex ≤ c'.poseIndex ∧ c'.poseIndex ≤ c.poseIndex + 1 := by
  cases o with
  | setNavigationPath p =>
    cases h
    simp only [Op.newPath, decide_eq_false_iff_not, not_le] at ho
    simp [NavCtrl.setNavigationPath, ho]
  | setTimeStep dT =>
    cases h
    simp only [NavCtrl.setTimeStep]
    split_ifs <;> simp
  | setSaturations l a =>
    cases h
    have := setSaturations_path c l a
    exact ⟨this.1, this.2.ge, by rw [this.2]; omega⟩
  | control =>
    simp only [NavCtrl.run, doUnicycleControl] at h
    split_ifs at h with h1
    · cases h; simp
    · simp only [Out.bind_eq_ok] at h
      obtain ⟨r, ⟨d, h2, h3⟩, h4⟩ := h
      cases h3
      cases h4
      simp only [computeDesiredVelocities, Out.bind_eq_ok] at h2
      obtain ⟨e, h3, h4⟩ := h2
      have key : ∀ d : NavCtrl K, e = some d → d.path = c.path ∧ c.poseIndex ≤ d.poseIndex ∧
          d.poseIndex ≤ c.poseIndex + 1 := by
        intro d hd
        subst hd
        unfold NavCtrl.nextPose at h3
        split at h3
        · cases h3
        · cases h3; simp
        · split at h3
          · cases h3
          · split_ifs at h3
            · cases h3
            · cases h3; simp
            · cases h3; simp
      cases e with
      | none => cases h4; simp
      | some e =>
        simp only at h4
        split at h4
        · cases h4
        · split at h4
          · simp only [Out.bind_eq_ok] at h4
            obtain ⟨r, -, h5⟩ := h4
            cases h5
            exact key e rfl
          · cases h4
  | _ => cases h; simp [NavCtrl.setConstantControl, NavCtrl.setInactiveUntil, NavCtrl.setFeedback]

theorem runAll_index {c c' : NavCtrl K} {os : List (Op K)} (h : c.runAll os = .ok c')
    (ho : ∀ o ∈ os, o.newPath = false) : c'.path = c.path ∧ c.poseIndex ≤ c'.poseIndex := by
  induction os generalizing c with
  | nil => cases h; exact ⟨rfl, le_refl _⟩
  | cons o os ih =>
    simp only [NavCtrl.runAll, Out.bind_eq_ok] at h
    obtain ⟨d, h1, h2⟩ := h
    obtain ⟨a1, a2, -⟩ := run_index h1 (ho o (by simp))
    obtain ⟨b1, b2⟩ := ih h2 fun o ho' => ho o (by simp [ho'])
    exact ⟨b1.trans a1, a2.trans b2⟩

theorem ready_of_accepted (c : NavCtrl K) (l a : K) (path : List (UState K))
    (h1 : (c.setSaturations l a).1 = true)
    (h2 : ((c.setSaturations l a).2.setNavigationPath path).1 = true) :
    ((c.setSaturations l a).2.setNavigationPath path).2.Ready ∧
    ((c.setSaturations l a).2.setNavigationPath path).2.path = path ∧
    ((c.setSaturations l a).2.setNavigationPath path).2.poseIndex = 1 ∧
    ((c.setSaturations l a).2.setNavigationPath path).2.state = c.state := by
  have hs := setSaturations_state c l a
  have hv : ∃ v l' a', (c.setSaturations l a).2.maxVel = some (v, l', a') ∧ 0 < v ∧ 0 < l' ∧ 0 < a' := by
    simp only [NavCtrl.setSaturations] at h1 ⊢
    split at h1
    · simp at h1
    · simp only [NavCtrl.setMaxVelocities] at h1 ⊢
      split_ifs at h1 ⊢ with h3
      push Not at h3
      have ht : (0 : K) < zeroTolerance := zeroTolerance_pos
      exact ⟨_, _, _, rfl, lt_of_lt_of_le ht h3.1, lt_of_lt_of_le ht h3.2.1, lt_of_lt_of_le ht h3.2.2⟩
  simp only [NavCtrl.setNavigationPath] at h2 ⊢
  split_ifs at h2 ⊢ with h3
  exact ⟨⟨by simp only; omega, by simp, by simp, hv⟩, rfl, rfl, hs⟩

/-- C50: once saturations and a path have been accepted and a feedback has been given (before, or as the next call), no
sequence of calls (feedback, control evaluations, further settings and paths) reads outside the path, an uninitialised
member or divides by zero; the tracked index always refers to an existing pose. -/
theorem C50_index_in_range (c : NavCtrl K) (l a : K) (path : List (UState K))
    (h1 : (c.setSaturations l a).1 = true)
    (h2 : ((c.setSaturations l a).2.setNavigationPath path).1 = true) (ops : List (Op K))
    (hf : c.state ≠ none ∨ ∃ t u rest, ops = .setFeedback t u :: rest) :
    ∃ c', ((c.setSaturations l a).2.setNavigationPath path).2.runAll ops = .ok c' ∧
      c'.poseIndex < c'.path.length := by
  obtain ⟨hr, -, -, hs⟩ := ready_of_accepted c l a path h1 h2
  rcases hf with hf | ⟨t, u, rest, rfl⟩
  · rcases hr.runAll ops with ⟨c', h3, h4⟩ | ⟨h3, -⟩
    · exact ⟨c', h3, h4.index⟩
    · exact absurd (hs ▸ h3) hf
  · have hr' : (((c.setSaturations l a).2.setNavigationPath path).2.setFeedback t u).Ready :=
      ⟨hr.index, hr.new_path, hr.eta, hr.vel⟩
    rcases hr'.runAll rest with ⟨c', h3, h4⟩ | ⟨h3, -⟩
    · exact ⟨c', by simpa [NavCtrl.runAll, NavCtrl.run] using h3, h4.index⟩
    · simp [NavCtrl.setFeedback] at h3

/-- C50: without any feedback the only thing that can go wrong is that a control evaluation uses the state of the unicycle
that nothing has assigned. -/
theorem C50_blind (c : NavCtrl K) (l a : K) (path : List (UState K)) (h1 : (c.setSaturations l a).1 = true)
    (h2 : ((c.setSaturations l a).2.setNavigationPath path).1 = true) (ops : List (Op K)) :
    (∃ c', ((c.setSaturations l a).2.setNavigationPath path).2.runAll ops = .ok c' ∧ c'.poseIndex < c'.path.length) ∨
    (c.state = none ∧ ((c.setSaturations l a).2.setNavigationPath path).2.runAll ops = .ub .uninitialised) := by
  obtain ⟨hr, -, -, hs⟩ := ready_of_accepted c l a path h1 h2
  rcases hr.runAll ops with ⟨c', h3, h4⟩ | ⟨h3, h4⟩
  · exact Or.inl ⟨c', h3, h4.index⟩
  · exact Or.inr ⟨hs ▸ h3, h4⟩

/-- C50: until a new path is accepted the path is unchanged and the index never decreases, whatever
the history before (`ops`) and after (`more`). -/
theorem C50_index_monotone (c : NavCtrl K) (l a : K) (path : List (UState K))
    (h1 : (c.setSaturations l a).1 = true)
    (h2 : ((c.setSaturations l a).2.setNavigationPath path).1 = true) (ops more : List (Op K))
    (hm : ∀ o ∈ more, o.newPath = false) (c' c'' : NavCtrl K)
    (h3 : ((c.setSaturations l a).2.setNavigationPath path).2.runAll ops = .ok c')
    (h4 : c'.runAll more = .ok c'') : c''.path = c'.path ∧ c'.poseIndex ≤ c''.poseIndex ∧ c''.poseIndex < c''.path.length := by
  obtain ⟨hr, -, -, hs⟩ := ready_of_accepted c l a path h1 h2
  have h5 := runAll_index h4 hm
  refine ⟨h5.1, h5.2, ?_⟩
  rcases hr.runAll ops with ⟨d, h6, h7⟩ | ⟨-, h6⟩
  · rw [h3] at h6
    cases h6
    rcases h7.runAll more with ⟨e, h8, h9⟩ | ⟨-, h8⟩
    · rw [h4] at h8
      cases h8
      exact h9.index
    · rw [h4] at h8; cases h8
  · rw [h3] at h6; cases h6

/-- C50: the initial target after a path is given is its second pose. -/
theorem C50_starts_at_second_pose (c : NavCtrl K) (l a : K) (path : List (UState K))
    (h1 : (c.setSaturations l a).1 = true)
    (h2 : ((c.setSaturations l a).2.setNavigationPath path).1 = true) :
    ((c.setSaturations l a).2.setNavigationPath path).2.poseIndex = 1 :=
  (ready_of_accepted c l a path h1 h2).2.2.1

/-- C50, the exception: a controller that was never given a path reads outside its (empty) path at the
first active control evaluation, whatever the uninitialised members (`b`, `e`) happen to contain. -/
theorem C50_no_path_out_of_range (c : NavCtrl K) (hp : c.path = []) (b : Bool)
    (e : K) (ht : ¬ c.time < c.deactivationEnd) :
    { c with newPath := some b, eta := some e }.doUnicycleControl = .ub .outOfRange := by
  cases b <;> by_cases he : e < c.dt <;>
    simp [doUnicycleControl, ht, computeDesiredVelocities, nextPose, hp, he]

end

/-- A mock of the elementary functions for executing the model over `ℚ`. -/
local instance : Trig ℚ where
  cos := fun _ => 1
  sin := fun _ => 0
  sqrt := fun x => x
  exp := fun x => x
  tanh := fun x => x
  atan2 := fun _ _ => 0
  pi := 3

/-- Non-vacuity of C50: an accepted configuration and path, and a history that moves the index. -/
example : (((new : NavCtrl ℚ).setSaturations 1 1).1 = true) ∧
    (((new : NavCtrl ℚ).setSaturations 1 1).2.setNavigationPath [⟨0, 0⟩, ⟨0, 0⟩, ⟨⟨1, 0⟩, 0⟩]).1 = true ∧
    (match (((new : NavCtrl ℚ).setSaturations 1 1).2.setNavigationPath
        [⟨0, 0⟩, ⟨0, 0⟩, ⟨⟨1, 0⟩, 0⟩]).2.runAll [.setFeedback 0 ⟨0, 0⟩, .control, .control] with
      | .ok c => c.poseIndex == 2
      | _ => false) = true := by decide +kernel

/-- Non-vacuity of `C50_blind`: a control evaluation before any feedback. -/
example : (match (((new : NavCtrl ℚ).setSaturations 1 1).2.setNavigationPath
        [⟨0, 0⟩, ⟨0, 0⟩, ⟨⟨1, 0⟩, 0⟩]).2.runAll [.control] with
      | .ub .uninitialised => true
      | _ => false) = true := by decide +kernel

/-- Non-vacuity of the exception: the constructor's state. -/
example : (new : NavCtrl ℚ).path = [] ∧
    ¬ (new : NavCtrl ℚ).time < (new : NavCtrl ℚ).deactivationEnd := by decide +kernel

section
variable {K : Type*} [Field K] [LinearOrder K] [IsStrictOrderedRing K] [Trig K]

/-- The last pose is considered reached: it is the tracked one and its expected arrival time is below
the time step. -/
def Arrived (c : NavCtrl K) : Prop :=
  c.newPath = some false ∧ (∃ e, c.eta = some e ∧ e < c.dt) ∧ c.path ≠ [] ∧ c.poseIndex = c.path.length - 1

/-- Calls that neither give a new path nor change the time step. -/
def Op.keepsGoal : Op K → Bool
  | .setNavigationPath _ => false
  | .setTimeStep _ => false
  | _ => true

theorem Arrived.run {c c' : NavCtrl K} (h : c.Arrived) (o : Op K) (ho : o.keepsGoal = true)
    (hr : c.run o = .ok c') : c'.Arrived := by
  obtain ⟨h1, ⟨e, h2, h3⟩, h4, h5⟩ := h
  cases o with
  | setNavigationPath p => simp [Op.keepsGoal] at ho
  | setTimeStep p => simp [Op.keepsGoal] at ho
  | setConstantControl v => cases hr; exact ⟨h1, ⟨e, h2, h3⟩, h4, h5⟩
  | setInactiveUntil v => cases hr; exact ⟨h1, ⟨e, h2, h3⟩, h4, h5⟩
  | setSlowWhenSidewaysFactor g => cases hr; exact ⟨h1, ⟨e, h2, h3⟩, h4, h5⟩
  | setSlowWhenTurnGain g => cases hr; exact ⟨h1, ⟨e, h2, h3⟩, h4, h5⟩
  | setSlowWhenBackwardFactor g => cases hr; exact ⟨h1, ⟨e, h2, h3⟩, h4, h5⟩
  | setFeedback t u => cases hr; exact ⟨h1, ⟨e, h2, h3⟩, h4, h5⟩
  | setSaturations l a =>
    cases hr
    simp only [NavCtrl.setSaturations, NavCtrl.setMaxVelocities]
    split
    · exact ⟨h1, ⟨e, h2, h3⟩, h4, h5⟩
    · split_ifs <;> exact ⟨h1, ⟨e, h2, h3⟩, h4, h5⟩
  | control =>
    have hl : c.path.length ≠ 0 := by simpa using h4
    simp only [NavCtrl.run, doUnicycleControl] at hr
    split_ifs at hr with ht
    · cases hr; exact ⟨h1, ⟨e, h2, h3⟩, h4, h5⟩
    · simp only [computeDesiredVelocities, nextPose, h1, h2, if_pos h3, ne_eq, hl, not_false_eq_true,
        true_and, if_pos h5, Out.bind_ok, Out.ok.injEq] at hr
      cases hr
      exact ⟨rfl, ⟨e, rfl, h3⟩, h4, h5⟩

/-- C54: once the last pose has been reached, every later control evaluation commands zero velocity,
whatever feedback and settings are given in between, until a new path (or time step) is set. -/
theorem C54_stops_at_last_pose (c : NavCtrl K) (h : c.Arrived) (ops : List (Op K))
    (ho : ∀ o ∈ ops, o.keepsGoal = true) (c' : NavCtrl K) (hr : c.runAll ops = .ok c') :
    ∃ c'', c'.doUnicycleControl = .ok (⟨0, 0, 0⟩, c'') := by
  have ha : c'.Arrived := by
    induction ops generalizing c with
    | nil => cases hr; exact h
    | cons o os ih =>
      simp only [NavCtrl.runAll, Out.bind_eq_ok] at hr
      obtain ⟨d, h1, h2⟩ := hr
      exact ih d (h.run o (ho o (by simp)) h1) (fun o ho' => ho o (by simp [ho'])) h2
  obtain ⟨h1, ⟨e, h2, h3⟩, h4, h5⟩ := ha
  have hl : c'.path.length ≠ 0 := by simpa using h4
  simp only [doUnicycleControl]
  split_ifs with ht
  · exact ⟨_, rfl⟩
  · simp [computeDesiredVelocities, nextPose, h1, h2, if_pos h3, hl, h5]

/-- Non-vacuity of C54: a run that arrives. -/
example : ∃ c : NavCtrl ℚ, (((new : NavCtrl ℚ).setSaturations 1 1).2.setNavigationPath
    [⟨0, 0⟩, ⟨0, 0⟩]).2.runAll [.setFeedback 0 ⟨0, 0⟩, .control] = .ok c ∧ c.Arrived := by
  have h : (match (((new : NavCtrl ℚ).setSaturations 1 1).2.setNavigationPath
      [⟨0, 0⟩, ⟨0, 0⟩]).2.runAll [.setFeedback 0 ⟨0, 0⟩, .control] with
      | .ok c => decide (c.newPath = some false) && decide (c.eta = some 0) && decide (0 < c.dt) &&
          decide (c.path ≠ []) && decide (c.poseIndex = c.path.length - 1)
      | _ => false) = true := by decide +kernel
  revert h
  cases (((new : NavCtrl ℚ).setSaturations 1 1).2.setNavigationPath [⟨0, 0⟩, ⟨0, 0⟩]).2.runAll [.setFeedback 0 ⟨0, 0⟩, .control] with
  | ok c =>
    intro h
    simp only [Bool.and_eq_true, decide_eq_true_eq] at h
    exact ⟨c, rfl, h.1.1.1.1, ⟨0, h.1.1.1.2, h.1.1.2⟩, h.1.2, h.2⟩
  | fail => simp
  | ub w => simp

end

section
open Real

/-- C55 (violated): the speed limits are applied to the components of the velocity in the *world* frame
while they are the limits of the forward and lateral speed in the *robot* frame: with heading 90° a goal
ahead on the world x axis makes the controller ask for a lateral speed equal to the *forward* limit. -/
theorem C55_lateral_limit_exceeded : ∃ (s g : UState ℝ) (v l a eta : ℝ) (u : Control ℝ),
    0 < v ∧ 0 < l ∧ 0 < a ∧ velocitiesTo s g (v, l, a) = .ok (eta, u) ∧ l < |u.lateral| := by
  refine ⟨⟨0, π / 2⟩, ⟨⟨10, 0⟩, π / 2⟩, 1, 1 / 10, 1, 10, ⟨0, 1, -1⟩, by norm_num, by norm_num,
    by norm_num, ?_, by norm_num⟩
  have ha : (Trig.atan2 (0 : ℝ) 10) = 0 := by
    show Complex.arg ⟨10, 0⟩ = 0
    have : (⟨10, 0⟩ : ℂ) = ((10 : ℝ) : ℂ) := rfl
    rw [this]
    exact Complex.arg_ofReal_of_nonneg (by norm_num)
  have hs : Real.sqrt (10 ^ 2) = 10 := Real.sqrt_sq (by norm_num)
  have hp := Real.pi_pos
  simp only [velocitiesTo, Vec2.zero_x, Vec2.zero_y, sub_zero, ha, cos_real, sin_real, Real.cos_zero,
    Real.sin_zero, sub_self, Real.cos_pi_div_two, Real.sin_pi_div_two, linearSpeed, wrapOnce, pi_real,
    zeroTolerance, clip, sqrt_real]
  have hs' : Real.sqrt 100 = 10 := by rw [← hs]; norm_num
  norm_num [hs']
  simp [not_lt.mpr hp.le]

/-- C55 (partial; missing: the other headings, refuted by `C55_lateral_limit_exceeded`): with heading 0 (where the frames agree) the commanded speeds respect the
limits, as long as the limits are not more than six orders of magnitude apart. -/
theorem C55_limits_heading_zero_partial (s g : UState ℝ) (v l a eta : ℝ) (u : Control ℝ) (hv : 0 < v)
    (hl : 0 < l) (ha : 0 < a) (hs : s.angle = 0) (h1 : l * zeroTolerance ≤ v) (h2 : v * zeroTolerance ≤ l)
    (h : velocitiesTo s g (v, l, a) = .ok (eta, u)) :
    |u.forward| ≤ v ∧ |u.lateral| ≤ l ∧ |u.angular| = a := by
  have ht : (0 : ℝ) < zeroTolerance := zeroTolerance_pos
  have hclip : ∀ x : ℝ, |clip x| ≤ |x| := by
    intro x; simp only [clip]; split_ifs <;> simp
  have hdir : ∀ d : ℝ, |(if 0 ≤ d then 1 else -1) * a| = a := by
    intro d
    split_ifs <;> simp [abs_of_pos ha]
  simp only [velocitiesTo] at h
  rw [if_neg (by
    rintro (h | h)
    · exact (linearSpeed_pos hv hl _ _).ne' h
    · exact ha.ne' h)] at h
  rcases ite_eq_iff.mp h with ⟨-, h⟩ | ⟨-, h⟩
  · simp only [Out.ok.injEq, Prod.mk.injEq] at h
    obtain ⟨-, rfl⟩ := h
    exact ⟨by simp [hv.le], by simp [hl.le], hdir _⟩
  · simp only [Out.ok.injEq, Prod.mk.injEq] at h
    obtain ⟨-, rfl⟩ := h
    generalize Trig.atan2 (g.position.y - s.position.y) (g.position.x - s.position.x) = θ
    simp only [hs, cos_real, sin_real, Real.cos_zero, Real.sin_zero, mul_one, mul_zero, add_zero, zero_add]
    have hc1 := Real.abs_cos_le_one θ
    have hs1 := Real.abs_sin_le_one θ
    have hb : |linearSpeed v l (cos θ) (sin θ) * cos θ| ≤ v ∧ |linearSpeed v l (cos θ) (sin θ) * sin θ| ≤ l := by
      rw [abs_mul, abs_mul, abs_of_pos (linearSpeed_pos hv hl _ _)]
      simp only [linearSpeed]
      split_ifs with c1 c2 c3
      · exact ⟨le_trans (mul_le_mul_of_nonneg_left c1.le hl.le) h1, mul_le_of_le_one_right hl.le hs1⟩
      · exact ⟨mul_le_of_le_one_right hv.le hc1, le_trans (mul_le_mul_of_nonneg_left c2.le hv.le) h2⟩
      · have p1 : 0 < |cos θ| := lt_of_lt_of_le ht (not_lt.mp c1)
        have p2 : 0 < |sin θ| := lt_of_lt_of_le ht (not_lt.mp c2)
        refine ⟨by rw [div_mul_cancel₀ _ p1.ne'], ?_⟩
        calc v / |cos θ| * |sin θ| ≤ l / |sin θ| * |sin θ| := mul_le_mul_of_nonneg_right c3.le p2.le
          _ = l := div_mul_cancel₀ _ p2.ne'
      · have p1 : 0 < |cos θ| := lt_of_lt_of_le ht (not_lt.mp c1)
        have p2 : 0 < |sin θ| := lt_of_lt_of_le ht (not_lt.mp c2)
        refine ⟨?_, by rw [div_mul_cancel₀ _ p2.ne']⟩
        calc l / |sin θ| * |cos θ| ≤ v / |cos θ| * |cos θ| := mul_le_mul_of_nonneg_right (not_lt.mp c3) p1.le
          _ = v := div_mul_cancel₀ _ p1.ne'
    refine ⟨le_trans (hclip _) hb.1, le_trans (hclip _) ?_, hdir _⟩
    simpa using hb.2

/-- Non-vacuity of the partial theorem: limits satisfying the hypotheses always give a command. -/
example : ∃ r, velocitiesTo (⟨0, 0⟩ : UState ℝ) ⟨⟨1, 1⟩, 0⟩ (1, 1, 1) = .ok r ∧
    (1 : ℝ) * zeroTolerance ≤ 1 := by
  obtain ⟨r, hr⟩ := velocitiesTo_ok (K := ℝ) one_pos one_pos one_pos ⟨0, 0⟩ ⟨⟨1, 1⟩, 0⟩
  exact ⟨r, hr, by norm_num [zeroTolerance]⟩

end

end Uni.NavCtrl
