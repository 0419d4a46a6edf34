import Verif.Spec.Stop
import Verif.Lemmas.Turns
import Verif.Props.Pursuit
import Verif.Props.Steady
import Verif.Props.GoesOn
import Verif.Props.Forward

/-! # C125: a robot told to stop stops -/

set_option autoImplicit false
set_option linter.unusedSectionVars false

namespace Uni
open Spec Gen

namespace Planner
variable {p p' : Planner ℝ} {integ : Integrator ℝ} {fuel : Nat} {left right left' right' : FootPrint ℝ} {t0 t1 : ℝ}

theorem side_state (p : Planner ℝ) (fl fr : FootPrint ℝ) (l r : Step ℝ) :
    SideBySide p l r ↔ stateFor (leftFoot p fl) l = stateFor (rightFoot p fr) r := Iff.rfl

theorem side_same {p q : Planner ℝ} (h : SameStance p q) (l r : Step ℝ) : SideBySide q l r ↔ SideBySide p l r := by
  obtain ⟨h1, h2, h3⟩ := h
  unfold SideBySide leftFoot rightFoot
  rw [h1, h2, h3]
  exact Iff.rfl

theorem side_place {p : Planner ℝ} {l r l' r' : Step ℝ} (h1 : l'.position = l.position ∧ l'.angle = l.angle)
    (h2 : r'.position = r.position ∧ r'.angle = r.angle) : SideBySide p l' r' ↔ SideBySide p l r := by
  unfold SideBySide stateFor
  rw [h1.1, h1.2, h2.1, h2.2]

/-- What a plan does to a planner under direct control. -/
theorem direct_after (hi : Integrates integ) (hpc : p.controller = .direct)
    (h : p.computeNewSteps integ fuel left right t0 t1 = .done true p' left' right') :
    SameConfig p p' ∧ p'.ctrl.direct.desired = p.ctrl.direct.desired ∧ p'.ctrl.directBase = limited p p.ctrl.directBase := by
  obtain ⟨durations, garbage, -, hi⟩ := hi
  refine ⟨computeNewSteps_keep p integ fuel left right t0 t1 p' (by rw [h]; rfl), ?_⟩
  rcases computeNewSteps_cases p integ left right t0 t1 with
    ⟨-, q, hq⟩ | ⟨-, -, -, -, hw⟩ | ⟨-, -, -, -, -, q, l0, r0, -, hq⟩ | ⟨-, q, sol, l0, r0, prev, hs, hq⟩
  · rw [hq] at h; cases h
  · rw [hw] at h; cases h
  · rw [hq] at h; cases h
  · rw [hq] at h
    have hc := plan_ctrl q sol fuel (leftFoot p l0) (rightFoot p r0) p' (by rw [h]; rfl)
    obtain ⟨c0, u, -, ⟨traj, tp, ts, hc0⟩, hint⟩ := hs.integrated
    have hqc : q.controller = .direct := by rw [hs.eq]; exact hpc
    have e : q.ctrl = c0 := by
      have := hi { q with ctrl := c0 } u t0 t1 hqc
      rw [hint] at this
      exact (Prod.mk.inj this).1
    rw [hc, e, hc0]
    refine ⟨?_, rfl⟩
    simp only
    split_ifs <;> rfl

theorem told_transfer (h : SameConfig p p') (hd : p'.ctrl.direct.desired = p.ctrl.direct.desired)
    (hb : p'.ctrl.directBase.turnGain = p.ctrl.directBase.turnGain ∧ p'.ctrl.directBase.backFactor = p.ctrl.directBase.backFactor ∧
      p'.ctrl.directBase.sideFactor = p.ctrl.directBase.sideFactor) : ToldToStop p' ↔ ToldToStop p := by
  obtain ⟨l1, l2⟩ := limits_same h
  obtain ⟨e1, e2, e3⟩ := hb
  have hl : WithinLimits p' ⟨0, 0, 0⟩ ↔ WithinLimits p ⟨0, 0, 0⟩ := by
    constructor
    · rintro ⟨a1, a2, a3, a4, a5, a6, a7, a8⟩
      rw [l1] at a1 a6 a7 a8
      rw [e1] at a2 a6 a7
      rw [e2] at a3 a7
      rw [e3] at a4 a8
      rw [l2] at a5
      exact ⟨a1, a2, a3, a4, a5, a6, a7, a8⟩
    · rintro ⟨a1, a2, a3, a4, a5, a6, a7, a8⟩
      rw [← l1] at a1 a6 a7 a8
      rw [← e1] at a2 a6 a7
      rw [← e2] at a3 a7
      rw [← e3] at a4 a8
      rw [← l2] at a5
      exact ⟨a1, a2, a3, a4, a5, a6, a7, a8⟩
  have k1 : p'.controller = p.controller := by unfold SameConfig at h; rw [h]
  have k2 : p'.minTime = p.minTime := by unfold SameConfig at h; rw [h]
  have k3 : p'.minLength = p.minLength := by unfold SameConfig at h; rw [h]
  have k4 : p'.minAngle = p.minAngle := by unfold SameConfig at h; rw [h]
  have k5 : p'.integratorStep = p.integratorStep := by unfold SameConfig at h; rw [h]
  constructor
  · rintro ⟨c1, c2, c3, c4, c5, c6, c7⟩
    exact ⟨k1 ▸ c1, hd ▸ c2, k2 ▸ c3, k3 ▸ c4, k4 ▸ c5, k5 ▸ c6, hl.mp c7⟩
  · rintro ⟨c1, c2, c3, c4, c5, c6, c7⟩
    exact ⟨k1 ▸ c1, hd ▸ c2, k2 ▸ c3, k3 ▸ c4, k4 ▸ c5, k5 ▸ c6, hl.mpr c7⟩

theorem stance_same (h : SameConfig p p') : SameStance p p' := by
  unfold SameConfig at h
  rw [h]
  exact ⟨rfl, rfl, rfl⟩

/-- A planner told to stop had been told so before it planned. -/
theorem told_before (hi : Integrates integ) (h : p.computeNewSteps integ fuel left right t0 t1 = .done true p' left' right')
    (ht : ToldToStop p') : ToldToStop p ∧ SameStance p p' := by
  have hsame := computeNewSteps_keep p integ fuel left right t0 t1 p' (by rw [h]; rfl)
  have hpc : p.controller = .direct := by
    have := ht.controller
    unfold SameConfig at hsame; rw [hsame] at this; exact this
  obtain ⟨-, k1, k2⟩ := direct_after hi hpc h
  exact ⟨(told_transfer hsame k1 (by rw [k2]; exact ⟨rfl, rfl, rfl⟩)).mp ht, stance_same hsame⟩

/-- A planner told to stop has been told so after it has planned. -/
theorem told_after (hi : Integrates integ) (h : p.computeNewSteps integ fuel left right t0 t1 = .done true p' left' right')
    (ht : ToldToStop p) : ToldToStop p' ∧ SameStance p p' := by
  obtain ⟨k0, k1, k2⟩ := direct_after hi ht.controller h
  exact ⟨(told_transfer k0 k1 (by rw [k2]; exact ⟨rfl, rfl, rfl⟩)).mpr ht, stance_same k0⟩

/-- C125: the order that stops the robot. -/
theorem C125_order (hc : Consistent p) (hdir : p.controller = .direct) (hmin : 0 < p.minTime) (hlen : 0 < p.minLength) (hang : 0 < p.minAngle)
    (hgains : 0 ≤ p.ctrl.directBase.turnGain ∧ 0 ≤ p.ctrl.directBase.backFactor ∧ 0 ≤ p.ctrl.directBase.sideFactor) :
    ToldToStop (p.run (.setDesiredDirectControl ⟨0, 0, 0⟩)).2 := by
  obtain ⟨g1, g2, g3⟩ := hgains
  have hs : 0 ≤ speedLimit p := by
    unfold speedLimit
    rw [sqrt_real]
    exact mul_nonneg (div_nonneg (Real.sqrt_nonneg _) hmin.le) hc.linFactor.1
  have ht : 0 ≤ turnLimit p := mul_nonneg (div_nonneg hc.maxAngle hmin.le) hc.angFactor.1
  refine ⟨hdir, rfl, hmin, hlen, hang, hc.integration, ⟨hs, g1, g2, g3, ?_, ?_, ?_, ?_⟩⟩
  · rw [abs_zero]; exact ht
  · change (0 : ℝ) ≤ speedLimit p / (1 + p.ctrl.directBase.turnGain * |0|)
    simpa using hs
  · change -(p.ctrl.directBase.backFactor * (speedLimit p / (1 + p.ctrl.directBase.turnGain * |0|))) ≤ (0 : ℝ)
    simpa using mul_nonneg g2 hs
  · rw [abs_zero]; exact mul_nonneg g3 hs

/-- C125: the positive minimum length and minimum angle are needed. Both setters accept zero, but with one of them zero no step is ever
too small, and a robot that stands with its feet side by side and is told not to move marches on the spot up to the end of the horizon. -/
theorem C125_marches (hp : Timed p) (hL : NonNeg left) (hR : NonNeg right) (hd : Driven p ⟨0, 0, 0⟩) (hzero : p.minLength ≤ 0 ∨ p.minAngle ≤ 0)
    (hf : StraightFits p ⟨0, 0, 0⟩ 0) {a b : Step ℝ} (hl : left.steps.getLast? = some a) (hr : right.steps.getLast? = some b)
    (hside : SideBySide p a b) (hi : Integrates integ)
    (h : p.computeNewSteps integ fuel left right t0 t1 = .done true p' left' right') :
    ∃ d, PlanOf p integ left right t0 t1 left' right' d ∧ KeepsWalking p 0 (executedFrom p t0 true d.q.firstStep) t0 t1 d := by
  obtain ⟨durations, garbage, hs, hi⟩ := hi
  have hne : ¬ (left.steps = [] ∧ right.steps = []) := by
    rintro ⟨h1, -⟩
    rw [h1] at hl; cases hl
  have hfits : ∀ s, StraightFits p ⟨0, 0, 0⟩ s := fun s =>
    ⟨by simpa using hf.length, by simpa using hf.width, hf.angle, by simpa using hf.backward⟩
  obtain ⟨d, u, start, k1, k2, k3, k4⟩ := steadily_walks (cmd := ⟨0, 0, 0⟩) hp hL hR (steadily_straight hd rfl (.inr hzero) (hfits _)) (.inl rfl) hs hi h
  refine ⟨d, k1, ?_⟩
  have hsp : speedOf ⟨0, 0, 0⟩ = 0 := by simp [speedOf]
  rw [hsp, div_zero, k3] at k4
  simp only [hne, not_false_eq_true, decide_true] at k4
  apply k4
  have hu : u = stateFor (leftFoot p left) a ∧ u = stateFor (rightFoot p right) b := by
    have hs' : stateFor (leftFoot p left) a = stateFor (rightFoot p right) b := hside
    rw [hl, hr] at k2
    cases k2 with
    | together _ _ _ => split_ifs <;> simp [hs']
    | leftOlder _ _ _ => exact ⟨hs'.symm, rfl⟩
    | rightOlder _ _ _ => exact ⟨rfl, hs'⟩
  have hstay : ∀ s, track u ⟨0, 0, 0⟩ p.integratorStep s = u := fun s => by
    rw [track_plain hd.step (.inl rfl)]
    ext <;> simp [goOn, rot]
  refine ⟨fun l h => ⟨0, le_rfl, ?_⟩, fun r h => ⟨0, le_rfl, ?_⟩⟩
  · rw [hl] at h; cases h
    rw [hstay, ← hu.1]
  · rw [hr] at h; cases h
    rw [hstay, ← hu.2]

/-- A plan of a planner told to stop, from one contact of each foot. -/
theorem stop_plan (hp : Timed p) (hi : Integrates integ) (ht : ToldToStop p) {a b : Step ℝ} (hl : left.steps = [a]) (hr : right.steps = [b])
    (ha : 0 ≤ a.impactTime) (hb : 0 ≤ b.impactTime)
    (h : p.computeNewSteps integ fuel left right t0 t1 = .done true p' left' right') :
    ∃ a' b' L R, left'.steps = a' :: L ∧ right'.steps = b' :: R ∧ (a'.position = a.position ∧ a'.angle = a.angle) ∧
      (b'.position = b.position ∧ b'.angle = b.angle) ∧ L.length + R.length ≤ 1 ∧ (SideBySide p a b → L = [] ∧ R = []) ∧
      (∀ s, L = [s] → SideBySide p s b') ∧ (∀ s, R = [s] → SideBySide p a' s) := by
  obtain ⟨durations, garbage, hs, hi⟩ := hi
  obtain ⟨d, u, hd, hu, k1, k2, k3⟩ := C99_standing hp (by intro s hs; rw [hl] at hs; simp at hs; rw [hs]; exact ha)
    (by intro s hs; rw [hr] at hs; simp at hs; rw [hs]; exact hb) ht.controller ht.command ht.limits ht.minLength ht.minAngle hs
    ht.integratorStep hi h
  have hbase := start_base ht.controller (Or.inl (by rw [ht.command])) hd hu
  obtain ⟨s1, s2⟩ : d.l0 = left ∧ d.r0 = right := by
    rcases hd.begins.steps with ⟨-, s1, s2⟩ | ⟨n, -⟩
    · exact ⟨s1, s2⟩
    · rw [hl] at n; cases n
  have hlast := hd.begins.last
  obtain ⟨f1, f2, -, -⟩ := foot_eq hd
  rcases hd.effect with ⟨hne, e1, e2⟩ | ⟨hnil, l, r, hl', hr', hre⟩
  · obtain ⟨e, he⟩ : ∃ e, d.log = [e] := by
      match hlog : d.log, hne, k1 with
      | [e], _, _ => exact ⟨e, rfl⟩
      | _ :: _ :: _, _, hk => simp at hk
    have hfirst : e.left = d.q.swingLeft := by
      have := hd.alternates
      rw [he] at this
      exact this.1
    have hplace := k2 e (by rw [he]; simp)
    have hnot : ¬ SideBySide p a b := by
      intro hside
      have := k3 (by
        intro l r h1 h2
        rw [hl] at h1; rw [hr] at h2
        simp at h1 h2
        subst h1 h2
        exact hside) (by rw [hl, hr]; simp)
      rw [he] at this; cases this
    rw [s1, s2] at hlast
    have hu' : stateFor (if e.left then rightFoot p right else leftFoot p left) (if e.left then b else a) = u := by
      rw [← hbase, hfirst]
      cases hsw : d.q.swingLeft <;> rw [hsw] at hlast <;> simp only [Bool.false_eq_true, if_false, if_true] at hlast ⊢
      · rw [hl] at hlast; simp at hlast
        rw [← hlast, f1]
      · rw [hr] at hlast; simp at hlast
        rw [← hlast, f2]
    refine ⟨a, b, stepsOf true d.log, stepsOf false d.log, by rw [e1, s1, extendBy, hl]; rfl, by rw [e2, s2, extendBy, hr]; rfl,
      ⟨rfl, rfl⟩, ⟨rfl, rfl⟩, ?_, fun hside => absurd hside hnot, ?_, ?_⟩
    · rw [he]
      cases hx : e.left <;> simp [stepsOf, hx]
    · intro s hs'
      rw [he] at hs'
      cases hx : e.left
      · simp [stepsOf, hx] at hs'
      · rw [hx] at hu' hplace
        simp [stepsOf, hx] at hs'
        simp only [if_true] at hu' hplace
        rw [side_state p left right, ← hs', hplace, state_step]
        exact hu'.symm
    · intro s hs'
      rw [he] at hs'
      cases hx : e.left
      · rw [hx] at hu' hplace
        simp [stepsOf, hx] at hs'
        simp only [Bool.false_eq_true, if_false] at hu' hplace
        rw [side_state p left right, ← hs', hplace, state_step]
        exact hu'
      · simp [stepsOf, hx] at hs'
  · have retimed : ∀ (fp fp' : FootPrint ℝ) (c : Step ℝ) (u : ℝ), fp.steps = [c] → Retimed fp u fp' →
        ∃ x, fp'.steps = [x] ∧ x.position = c.position ∧ x.angle = c.angle := by
      rintro fp fp' c u hc ⟨older, s, e, rfl⟩
      rw [hc] at e
      cases older with
      | nil => simp at e; exact ⟨_, rfl, by rw [e], by rw [e]⟩
      | cons => simp at e
    rw [s1, s2] at hre
    rcases hre with ⟨-, rfl, rfl⟩ | ⟨-, rfl, hre⟩ | ⟨-, hre, rfl⟩
    · exact ⟨a, b, [], [], hl, hr, ⟨rfl, rfl⟩, ⟨rfl, rfl⟩, by simp, fun _ => ⟨rfl, rfl⟩, by simp, by simp⟩
    · obtain ⟨x, x1, x2⟩ := retimed _ _ _ _ hr hre
      exact ⟨a, x, [], [], hl, x1, ⟨rfl, rfl⟩, x2, by simp, fun _ => ⟨rfl, rfl⟩, by simp, by simp⟩
    · obtain ⟨x, x1, x2⟩ := retimed _ _ _ _ hl hre
      exact ⟨x, b, [], [], x1, hr, x2, ⟨rfl, rfl⟩, by simp, fun _ => ⟨rfl, rfl⟩, by simp, by simp⟩

/-- The default planner, told not to move, after `setMinimumStepLength(0)`. -/
noncomputable def marcher : Planner ℝ := ((drivenDemo ⟨0, 0, 0⟩).setMinimumStepLength 0).2

/-- Non-vacuity of `C125_marches`: zero is accepted as the minimum length; with the feet side by side and a horizon of twenty seconds
there are steps. -/
example : ((drivenDemo ⟨0, 0, 0⟩).setMinimumStepLength 0).1 = true ∧ ∃ d l' r', PlanOf marcher drivenInteg
      ⟨[⟨⟨0, 7 / 100⟩, 0, 0, "left"⟩], "left"⟩ ⟨[⟨⟨0, -7 / 100⟩, 0, 0, "right"⟩], "right"⟩ 0 20 l' r' d ∧ d.decided ≠ [] := by
  have hm : marcher = { drivenDemo ⟨0, 0, 0⟩ with minLength := 0 } := by
    simp [marcher, setMinimumStepLength]
  refine ⟨by simp [setMinimumStepLength], ?_⟩
  have hpi := Real.pi_pos
  have hno : ¬ Refused marcher drivenInteg ⟨[⟨⟨0, 7 / 100⟩, 0, 0, "left"⟩], "left"⟩ ⟨[⟨⟨0, -7 / 100⟩, 0, 0, "right"⟩], "right"⟩ 0 20 := by
    rw [hm]
    rintro (h | h | h | h | h | ⟨s, h, h'⟩ | h | ⟨h, -⟩ | ⟨q, u, h⟩)
    · apply h
      refine ⟨?_, ?_, ?_⟩ <;> simp only [drivenDemo, realDemo, Planner.new, deg2rad, pi_real]
      · norm_num
      · norm_num
      · linarith
    · apply h
      refine ⟨?_, ?_, fun h => by cases h⟩
      · simp only [speedLimit, drivenDemo, realDemo, Planner.new, sqrt_real]
        positivity
      · simp only [turnLimit, drivenDemo, realDemo, Planner.new, deg2rad, pi_real]
        positivity
    · simp only [drivenDemo, realDemo, Planner.new, deg2rad, pi_real] at h
      rcases h with h | h
      · norm_num at h
      · linarith
    · norm_num at h
    · norm_num at h
    · simp only [List.getLast?_singleton, Option.some.injEq] at h
      rcases h with h | h <;> (rw [← h] at h'; exact absurd h' (lt_irrefl _))
    · simp only [drivenDemo, realDemo, Planner.new] at h
      norm_num at h
    · cases h
    · cases h
  obtain ⟨p', l', r', h⟩ := C58_valid_requests_succeed (by simp [hm, drivenDemo, realDemo, Planner.new]) (by simp [hm, drivenDemo, realDemo, Planner.new]) hno
    (by simp) (by intro w h; rw [hm] at h; cases h) (Nat.lt_succ_self _)
  have hwl : WithinLimits (drivenDemo ⟨0, 0, 0⟩) ⟨0, 0, 0⟩ :=
    forwardDemo_within le_rfl ((by norm_num : (0 : ℝ) ≤ 1 / 25).trans (forwardDemo_speed le_rfl)) _ rfl
  have hdr := drivenDemo_driven hwl
  obtain ⟨d, hd, hk⟩ := C125_marches (a := ⟨⟨0, 7 / 100⟩, 0, 0, "left"⟩) (b := ⟨⟨0, -7 / 100⟩, 0, 0, "right"⟩)
    (by rw [hm]; exact ⟨(drivenDemo_timed ⟨0, 0, 0⟩).1, (drivenDemo_timed ⟨0, 0, 0⟩).2, (drivenDemo_timed ⟨0, 0, 0⟩).3⟩)
    (by intro s hs; simp only [List.mem_singleton] at hs; rw [hs]) (by intro s hs; simp only [List.mem_singleton] at hs; rw [hs])
    (by
      rw [hm]
      exact ⟨hdr.controller, hdr.command, ⟨hwl.speed_nonneg, hwl.turn_nonneg, hwl.back_nonneg, hwl.side_nonneg, hwl.angular, hwl.forward,
        hwl.backward, hwl.lateral⟩, hdr.step, hdr.period, hdr.slow, hdr.leftYaw, hdr.rightYaw, hdr.wide, hdr.free⟩)
    (by rw [hm]; exact .inl le_rfl)
    (by
      rw [hm]
      refine ⟨?_, ?_, ?_, ?_⟩ <;> intro m hm <;> simp only [drivenDemo, realDemo, Planner.new, Problem.new, Option.some.injEq, reduceCtorEq] at hm ⊢
      · rw [← hm]; norm_num
      · rw [← hm]; norm_num
      · rw [← hm]; simp only [deg2rad, pi_real]; positivity)
    rfl rfl
    (by rw [hm]; ext <;> simp [drivenDemo, realDemo, Planner.new, stateFor, leftFoot, rightFoot, rot] <;> norm_num)
    ⟨uniformSteps, 0, uniformSteps_fixed, fun q u a b hq => drivenInteg_direct q u a b hq⟩ h
  refine ⟨d, l', r', hd, fun hnil => ?_⟩
  have hfs : d.q.firstStep = true := hd.starts_together (Or.inr ⟨_, _, rfl, rfl, rfl⟩)
  have a3 := hk.2.2
  have hrun := hd.run
  have hprev : d.final.prev.impactTime ≤ 0 := by
    have hb := hd.begins.prevTime
    rw [hnil] at hrun
    generalize hst : d.start = c at hrun
    generalize d.final = c' at hrun ⊢
    cases hrun with
    | stop _ _ => rw [← hst]; exact hb
  rw [hfs, hm] at a3
  simp only [waits, max_eq_left hprev] at a3
  simp only [executedFrom, drivenDemo, realDemo, Planner.new] at a3
  rw [max_eq_left (a := max _ _) (hprev.trans (le_max_left _ _))] at a3
  norm_num at a3

end Planner

namespace Walker
variable {integ : Integrator ℝ} {sort : Sorter ℝ} {before old new w : Walker ℝ} {c : Call ℝ} {k m : Nat} {q : Request ℝ} {dT time : ℝ}
variable {legs : List (Leg ℝ)}

private theorem bools (l : List Bool) : l.length = l.countP (· == true) + l.countP (· == false) := by
  induction l with
  | nil => rfl
  | cons x l ih => cases x <;> simp [List.countP_cons] <;> simp at ih <;> omega

private theorem present_same {steps : List (Step ℝ)} {t : ℝ} {s s' : Step ℝ} (h : Present steps t s) (h' : Present steps t s') : s = s' := by
  obtain ⟨o, n, e, h1, h2⟩ := h
  obtain ⟨o', n', e', h1', h2'⟩ := h'
  rw [e] at e'
  rcases List.append_eq_append_iff.mp e' with ⟨x, x1, x2⟩ | ⟨x, x1, x2⟩
  · cases x with
    | nil => simp at x2; exact x2.1
    | cons y x =>
      simp at x2
      have := h2 s' (by rw [x2.2]; simp)
      linarith
  · cases x with
    | nil => simp at x2; exact x2.1.symm
    | cons y x =>
      simp at x2
      have := h2' s (by rw [x2.2]; simp)
      linarith

/-- What a robot that is told to stop does next: it brings one foot beside the other one, or nothing. -/
structure Stopping (w : Walker ℝ) (a b : Step ℝ) (L R : List (Step ℝ)) : Prop where
  left : w.left.steps = a :: L
  right : w.right.steps = b :: R
  few : L.length + R.length ≤ 1
  last_left : ∀ s, L = [s] → SideBySide w.planner s b
  last_right : ∀ s, R = [s] → SideBySide w.planner a s

/-- A walk that replaces another one, of a robot told to stop. -/
theorem stop_walk (hi : Integrates integ) (h : Merging integ sort before old new c k m q dT) (hL : NonNeg old.left) (hR : NonNeg old.right)
    (ht : ToldToStop new.planner) : ∃ sL sR a b L R, Present old.left.steps (timeOf c m) sL ∧ Present old.right.steps (timeOf c m) sR ∧
      Stopping new a b L R ∧ (q = .plain → (SideBySide new.planner a b ↔ SideBySide new.planner sL sR) ∧
        (SideBySide new.planner sL sR → L = [] ∧ R = [])) := by
  have hpi : (0 : ℝ) ≤ Trig.pi := by rw [pi_real]; exact Real.pi_pos.le
  obtain ⟨p2, fuel, fl, fr, l', r', t1, d, sL, sR, a, b, reset, h1, h2, -, -, -, -, ht2, -, f1, f2, h5, n1, n2, -, -, -, -, z1, z2, hq⟩ :=
    replanned_with hpi h hL hR ht.minTime
  obtain ⟨ht', hst⟩ := Planner.told_before hi h5 ht
  obtain ⟨a', b', L, R, e1, e2, q1, q2, few, none, lL, lR⟩ := Planner.stop_plan ht2 hi ht' f1 f2 z1 z2 h5
  refine ⟨sL, sR, a', b', L, R, h1, h2, ⟨by rw [n1, e1], by rw [n2, e2], few, fun s hs => ?_, fun s hs => ?_⟩, fun e => ?_⟩
  · exact (Planner.side_same hst _ _).mpr (lL s hs)
  · exact (Planner.side_same hst _ _).mpr (lR s hs)
  · obtain ⟨x1, x2, x3, x4⟩ := hq e
    refine ⟨Planner.side_place ⟨q1.1.trans x1, q1.2.trans x2⟩ ⟨q2.1.trans x3, q2.2.trans x4⟩, fun hs => none ?_⟩
    exact (Planner.side_place ⟨x1, x2⟩ ⟨x3, x4⟩).mpr ((Planner.side_same hst _ _).mp hs)

/-- C125: a robot that is told to stop, whatever it was doing, makes at most one more step, which brings the foot beside the other one;
if its feet are side by side already (and no measurement tells otherwise), it makes none. -/
theorem C125_stops (hi : Integrates integ) (hsort : ∀ l r, SortedPtrs l r (sort l r)) (h : Merging integ sort before old new c k m q dT)
    (hL : NonNeg old.left) (hR : NonNeg old.right) (ht : ToldToStop new.planner) (hphases : NoEmptyPhase sort new (timeOf c m) dT) :
    (takeoffs (supportsOf new)).length ≤ 1 ∧
    (takeoffs (supportsOf new) ≠ [] → FeetParallel new.planner new.left new.right) ∧
    (q = .plain → ∀ sL sR, Present old.left.steps (timeOf c m) sL → Present old.right.steps (timeOf c m) sR →
      SideBySide new.planner sL sR → takeoffs (supportsOf new) = [] ∧ FeetParallel new.planner new.left new.right) := by
  obtain ⟨sL, sR, a, b, L, R, p1, p2, hst, hq⟩ := stop_walk hi h hL hR ht
  obtain ⟨fuel, changes, weight, pos, vel, endTime, -, -, r3⟩ := h.replanned
  obtain ⟨w1, ordered, t, hm⟩ := call_made_by (c := .reGenerate _ dT endTime _) r3
  have hc := takeoffs_count (hsort _ _) hm (hphases _ _ hm.made)
  have c1 := hc true
  have c2 := hc false
  simp only [Bool.false_eq_true, if_false, if_true, hst.left, hst.right, List.length_cons] at c1 c2
  have hlen := bools (takeoffs (supportsOf new))
  have hfew := hst.few
  refine ⟨by omega, fun hne => ?_, ?_⟩
  · have hpos := List.length_pos_iff.mpr hne
    intro l r hl hr
    rw [hst.left] at hl
    rw [hst.right] at hr
    match hLs : L, hRs : R with
    | [], [] => simp only [List.length_nil] at c1 c2; omega
    | [s], [] =>
      simp at hl hr; subst hl hr
      exact hst.last_left _ rfl
    | [], [s] =>
      simp at hl hr; subst hl hr
      exact hst.last_right _ rfl
    | _ :: _ :: _, _ => simp only [List.length_cons] at hfew; omega
    | _, _ :: _ :: _ => simp only [List.length_cons] at hfew; omega
    | [_], [_] => simp at hfew
  · intro e sL' sR' g1 g2 hs
    obtain ⟨q1, q2⟩ := hq e
    rw [present_same g1 p1, present_same g2 p2] at hs
    obtain ⟨rfl, rfl⟩ := q2 hs
    refine ⟨List.eq_nil_of_length_eq_zero (by simp only [List.length_nil] at c1 c2; omega), fun l r hl hr => ?_⟩
    rw [hst.left] at hl
    rw [hst.right] at hr
    simp at hl hr; subst hl hr
    exact q1.mpr hs

/-- The walks of a robot that has been told to stop, and the steps made so far. -/
theorem stopping (hi : Integrates integ) (hsort : ∀ l r, SortedPtrs l r (sort l r)) (h : Walking integ sort dT legs w time)
    {pre more : List (Leg ℝ)} {first : Leg ℝ} (hlegs : legs = pre ++ first :: more)
    (htimes : Everywhere (fun w _ => NonNeg w.left ∧ NonNeg w.right) legs w time)
    (hphases : Everywhere (fun w time => NoEmptyPhase sort w time dT) more w time)
    (hstop : Everywhere (fun v _ => ToldToStop v.planner ∧ SameStance w.planner v.planner) more w time)
    (hleft : ∀ l ∈ more, l.request = .plain ∧ LeftStanding l) :
    ∃ a b L R, Stopping w a b L R ∧ (takeoffs (more.flatMap fun l => (supportsOf l.walk).take l.count)).length + L.length + R.length ≤ 1 ∧
      (takeoffs (more.flatMap fun l => (supportsOf l.walk).take l.count) ≠ [] → SideBySide w.planner a b) := by
  induction h generalizing more with
  | start => cases pre <;> cases hlegs
  | @again legs before old new c k m q hw hd hm ih =>
    obtain ⟨t1, t2⟩ := everywhere_snoc htimes
    obtain ⟨sL, sR, a, b, L, R, p1, p2, hst, hq⟩ := stop_walk hi hm t1.2.1 t1.2.2 hstop.2.1
    rcases List.eq_nil_or_concat more with rfl | ⟨more', last, rfl⟩
    · exact ⟨a, b, L, R, hst, by simpa [takeoffs] using hst.few, fun h => absurd rfl h⟩
    have hl : legs = pre ++ first :: more' ∧ last = ⟨old, (timesOf c).1, m, q⟩ := by
      have : legs ++ [(⟨old, (timesOf c).1, m, q⟩ : Leg ℝ)] = (pre ++ first :: more') ++ [last] := by simpa using hlegs
      obtain ⟨x, y⟩ := List.append_inj' this rfl
      exact ⟨x, by simpa using y.symm⟩
    obtain ⟨hl, rfl⟩ := hl
    rw [List.concat_eq_append] at hphases hstop hleft ⊢
    obtain ⟨ph1, -⟩ := everywhere_snoc hphases
    obtain ⟨st1, -⟩ := everywhere_snoc hstop
    have hso := st1.2.2
    obtain ⟨a0, b0, L0, R0, g1, g2, g3⟩ := ih hl t1 ph1 ⟨fun l hl => ⟨(st1.1 l hl).1, by
        obtain ⟨x1, x2, x3⟩ := (st1.1 l hl).2
        obtain ⟨y1, y2, y3⟩ := hso
        exact ⟨x1.trans y1.symm, x2.trans y2.symm, x3.trans y3.symm⟩⟩, st1.2.1, rfl, rfl, rfl⟩ fun l hl => hleft l (by simp [hl])
    obtain ⟨rfl, l1⟩ := hleft ⟨old, (timesOf c).1, m, q⟩ (by simp)
    obtain ⟨q1, q2⟩ := hq rfl
    obtain ⟨w1, ordered, t, hro, hmo⟩ := walking_made hw
    have hpos := ph1.2 _ _ hmo.made
    have e : timeOf c m = (m : ℝ) * dT + (timesOf c).1 := by unfold timeOf; rw [hd]
    rw [e] at p1 p2
    obtain ⟨n, n1, n2, n3⟩ := takeoffs_stand (hsort _ _) hmo hpos l1 p1 p2
    have hsplit : takeoffs ((more' ++ [(⟨old, (timesOf c).1, m, .plain⟩ : Leg ℝ)]).flatMap fun l => (supportsOf l.walk).take l.count) =
        takeoffs (more'.flatMap fun l => (supportsOf l.walk).take l.count) ++ takeoffs ((supportsOf old).take m) := by
      rw [List.flatMap_append, List.flatMap_singleton]
      refine takeoffs_append_walk ?_
      obtain ⟨rest, hrest⟩ := starts_standing hmo hpos
      cases m with
      | zero => left; simp
      | succ m => right; rw [hrest, List.take_succ_cons]; exact ⟨_, rfl⟩
    have hc := takeoffs_count (hsort _ _) hmo hpos
    have c1 := hc true
    have c2 := hc false
    simp only [Bool.false_eq_true, if_false, if_true, g1.left, g1.right, List.length_cons] at c1 c2
    have hlen := bools (takeoffs (supportsOf old))
    have m1 := n3 true
    have m2 := n3 false
    simp only [Bool.false_eq_true, if_false, if_true, g1.left, g1.right] at m1 m2
    rw [hsplit, n2]
    generalize takeoffs (more'.flatMap fun l => (supportsOf l.walk).take l.count) = sofar at g2 g3 ⊢
    have hside : ∀ x y, SideBySide old.planner x y ↔ SideBySide new.planner x y := fun x y => Planner.side_same hso x y
    by_cases h0 : (takeoffs (supportsOf old)).take n = []
    · rw [h0] at m1 m2 ⊢
      simp at m1 m2
      subst m1 m2
      rw [List.append_nil]
      refine ⟨a, b, L, R, hst, ?_, fun hne => q1.mpr ((hside _ _).mp (g3 hne))⟩
      by_cases hne : sofar = []
      · rw [hne]; simpa using hst.few
      · obtain ⟨rfl, rfl⟩ := q2 ((hside _ _).mp (g3 hne))
        simp only [List.length_nil]; omega
    · have hbeside : SideBySide old.planner sL sR ∧ sofar = [] ∧ ((takeoffs (supportsOf old)).take n).length ≤ 1 := by
        have hx := List.length_pos_iff.mpr h0
        have hy : ((takeoffs (supportsOf old)).take n).length ≤ (takeoffs (supportsOf old)).length := List.length_take_le' _ _
        have hsf : sofar.length = 0 := by omega
        refine ⟨?_, List.eq_nil_of_length_eq_zero hsf, by omega⟩
        have hone : (takeoffs (supportsOf old)).length = 1 := by omega
        obtain ⟨f, hf⟩ := List.length_eq_one_iff.mp hone
        have htake : (takeoffs (supportsOf old)).take n = [f] := by
          rw [hf] at h0 ⊢
          cases n with
          | zero => simp at h0
          | succ n => simp
        rw [htake] at m1 m2
        rw [hf] at c1 c2
        cases f
        · simp at m1 m2 c1 c2
          subst m1
          match R0, c2, m2 with
          | [s], _, m2 => simp at m2; rw [← m2]; exact g1.last_right _ rfl
        · simp at m1 m2 c1 c2
          subst m2
          match L0, c1, m1 with
          | [s], _, m1 => simp at m1; rw [← m1]; exact g1.last_left _ rfl
      obtain ⟨k1, k2, k3⟩ := hbeside
      obtain ⟨rfl, rfl⟩ := q2 ((hside _ _).mp k1)
      refine ⟨a, b, [], [], hst, ?_, fun _ => q1.mpr ((hside _ _).mp k1)⟩
      rw [k2]
      simpa using k3

/-- C125: a robot that has been told to stop, after any number of walks, makes at most one more step, however often its walk is
replaced from then on.  Needed: it is not told otherwise, the walks are replaced between steps, without measurements, and nobody changes
how the feet are to stand. -/
theorem C125_for_good (hi : Integrates integ) (hsort : ∀ l r, SortedPtrs l r (sort l r)) (h : Walking integ sort dT legs w time)
    {pre more : List (Leg ℝ)} {first : Leg ℝ} (hlegs : legs = pre ++ first :: more)
    (htimes : Everywhere (fun w _ => NonNeg w.left ∧ NonNeg w.right) legs w time)
    (hphases : Everywhere (fun w time => NoEmptyPhase sort w time dT) more w time)
    (hstop : Everywhere (fun v _ => ToldToStop v.planner ∧ SameStance w.planner v.planner) more w time)
    (hleft : ∀ l ∈ more, l.request = .plain ∧ LeftStanding l) : (takeoffs (executed supportsOf more w)).length ≤ 1 := by
  obtain ⟨a, b, L, R, g1, g2, -⟩ := stopping hi hsort h hlegs htimes hphases hstop hleft
  obtain ⟨w1, ordered, t, hro, hm⟩ := walking_made h
  have hpos := hphases.2 _ _ hm.made
  have hc := takeoffs_count (hsort _ _) hm hpos
  have c1 := hc true
  have c2 := hc false
  simp only [Bool.false_eq_true, if_false, if_true, g1.left, g1.right, List.length_cons] at c1 c2
  have hlen := bools (takeoffs (supportsOf w))
  rw [executed, takeoffs_append_walk (Or.inr (starts_standing hm hpos)), List.length_append]
  omega

/-- C125: the end of a walk that comes to rest is such a moment between steps. -/
theorem C125_ends_standing {gap : ℝ} (h : Walking integ sort dT legs w time) (hc : Continuable sort gap dT w time) (hrest : ComesToRest dT w)
    (hm : w.outputs.merges.getLast? = some m) : LeftStanding ⟨w, time, m, q⟩ := by
  obtain ⟨w1, ordered, t, hro, hmo⟩ := walking_made h
  obtain ⟨l, r, tt, hr⟩ := timeline_ok hmo.made
  have hd := hr.dT_pos
  have htwo : 2 ≤ tt.rest := by
    obtain ⟨p, hp, hst⟩ := hrest
    obtain ⟨-, hroom, -⟩ := hc.usable.dcm p hp
    have h1 := rest_long hr
    have h2 : 2 * dT ≤ (tt.rest : ℝ) * dT := by nlinarith
    have h3 : (2 : ℝ) ≤ tt.rest := le_of_mul_le_mul_right h2 hd
    exact_mod_cast h3
  have hsupp := supports_eq hmo hr
  have hlen : (supportsOf w).length = total (tt.segs true) := by
    unfold supportsOf
    rw [hmo.outputs, List.length_zip]
    simp [contacts, hr.built.left, hr.built.right, tt.length_phases]
  generalize hA : (tt.slots.flatMap fun s => List.replicate s.ds (true, true) ++ List.replicate s.ss (!s.left, s.left)) = A at hsupp
  have hsupp' : supportsOf w = A ++ List.replicate tt.rest (true, true) := by rw [hsupp, supp, hA]
  have hN : total (tt.segs true) = A.length + tt.rest := by rw [← hlen, hsupp']; simp
  have hme : m = A.length + tt.rest - 1 := by
    rw [hmo.outputs] at hm
    rcases hr.built.cases with ⟨-, e, -, e', -⟩ | ⟨-, ms, -, -, e, -⟩
    · rw [e] at hA
      have hA0 : A.length = 0 := by rw [← hA]; rfl
      simp only [e'] at hm
      obtain ⟨n, hn⟩ : ∃ n, tt.rest = n + 2 := ⟨tt.rest - 2, by omega⟩
      rw [hn, show n + 2 - 1 = n + 1 by omega, List.range'_1_concat, ← List.cons_append, List.getLast?_concat, Option.some.injEq] at hm
      omega
    · simp only [e, List.getLast?_concat, Option.some.injEq] at hm
      omega
  have down : ∀ j, A.length ≤ j → j < A.length + tt.rest → BothDown w j := by
    intro j h1 h2
    have : (supportsOf w)[j]? = some (true, true) := by
      rw [hsupp', List.getElem?_append_right h1, List.getElem?_replicate, if_pos (by omega)]
    unfold supportsOf at this
    rw [List.getElem?_zip_eq_some] at this
    exact this
  exact ⟨down m (by omega) (by omega), fun j hj => down j (by simp only at hj; omega) (by simp only at hj; omega)⟩

/-! ## Examples -/

section
open Planner

noncomputable def drivenSol : Planner ℝ → UState ℝ → ℝ → ℝ → ℝ → UState ℝ := fun q u a b => ((Planner.euler uniformSteps 0 q u a b).2).getD fun _ => u

theorem driven_moving : drivenInteg = moving drivenSol := rfl

theorem driven_integrates : Integrates drivenInteg := ⟨uniformSteps, 0, uniformSteps_fixed, fun q u a b hq => drivenInteg_direct q u a b hq⟩

/-- The orders that stop the robot. -/
private def halt : List (Planner.Op ℝ) := [.setSlowWhenTurnGain 0, .setSlowWhenBackwardFactor 1, .setSlowWhenSidewaysFactor 1,
  .setDesiredDirectControl ⟨0, 0, 0⟩]

private theorem halt_keeps (w : Walker ℝ) : SameConfig w.planner (w.runAll (halt.map .planner)).planner := by
  have h1 : ¬ (1 : ℝ) < 0 := by norm_num
  simp [halt, runAll, Walker.run, Planner.run, onAllControllers, BaseCtrl.setSlowWhenTurnGain, BaseCtrl.setSlowWhenBackwardFactor,
    BaseCtrl.setSlowWhenSidewaysFactor, SameConfig, h1]

private theorem halt_tells (w : Walker ℝ) (h : SameConfig realDemo w.planner) : ToldToStop (w.runAll (halt.map .planner)).planner := by
  have hk := SameConfig.trans h (halt_keeps w)
  have hpi := Real.pi_pos
  have hb : (w.runAll (halt.map .planner)).planner.ctrl.directBase.turnGain = 0 ∧
      (w.runAll (halt.map .planner)).planner.ctrl.directBase.backFactor = 1 ∧
      (w.runAll (halt.map .planner)).planner.ctrl.directBase.sideFactor = 1 ∧
      (w.runAll (halt.map .planner)).planner.ctrl.direct.desired = ⟨0, 0, 0⟩ := by
    have h1 : ¬ (1 : ℝ) < 0 := by norm_num
    simp [halt, runAll, Walker.run, Planner.run, onAllControllers, BaseCtrl.setSlowWhenTurnGain, BaseCtrl.setSlowWhenBackwardFactor,
      BaseCtrl.setSlowWhenSidewaysFactor, DirectCtrl.setConstantControl, h1]
  generalize (w.runAll (halt.map .planner)).planner = p at hk hb
  obtain ⟨b1, b2, b3, b4⟩ := hb
  obtain ⟨l1, l2⟩ := limits_same hk
  have hs : 0 ≤ speedLimit realDemo := by simp only [speedLimit, realDemo, Planner.new, sqrt_real]; positivity
  have ht : 0 ≤ turnLimit realDemo := by simp only [turnLimit, realDemo, Planner.new, deg2rad, pi_real]; positivity
  refine ⟨?_, b4, ?_, ?_, ?_, ?_, ⟨by rw [l1]; exact hs, by rw [b1], by rw [b2]; norm_num, by rw [b3]; norm_num, by rw [l2]; simpa using ht, ?_, ?_, ?_⟩⟩
  · rw [hk]; rfl
  · rw [hk]; norm_num [realDemo, Planner.new]
  · rw [hk]; norm_num [realDemo, Planner.new]
  · rw [hk]; simp only [realDemo, Planner.new, deg2rad, pi_real]; positivity
  · rw [hk]; norm_num [realDemo, Planner.new]
  · rw [l1]; simpa using hs
  · rw [l1, b1, b2]; simpa using hs
  · rw [l1, b3]; simpa using hs

/-- The robot goes on to the end of the walk, with the given orders. -/
theorem driven_next {legs : List (Leg ℝ)} {w : Walker ℝ} {time : ℝ} (h : Walking drivenInteg insertion (1 / 100) legs w time)
    (hc : Continuable insertion strider.planner.minTime (1 / 100) w time) (hr : ComesToRest (1 / 100) w) (changes : List (Planner.Op ℝ))
    (hk : SameConfig realDemo (w.runAll (changes.map .planner)).planner) : ∃ m new, w.outputs.merges.getLast? = some m ∧
      Walking drivenInteg insertion (1 / 100) (legs ++ [⟨w, time, m, .plain⟩]) new (m * (1 / 100) + time) ∧
      Continuable insertion strider.planner.minTime (1 / 100) new (m * (1 / 100) + time) ∧ ComesToRest (1 / 100) new ∧
      SameConfig realDemo new.planner ∧ (ToldToStop (w.runAll (changes.map .planner)).planner → ToldToStop new.planner) ∧
      ∃ fuel nl nr sL sR cL cR, (w.runAll (changes.map .planner)).planner.computeNewSteps drivenInteg fuel ⟨[cL], nl⟩ ⟨[cR], nr⟩
        (m * (1 / 100) + time) (m * (1 / 100) + time + 20) = .done true new.planner new.left new.right ∧
        Present w.left.steps (m * (1 / 100) + time) sL ∧ Present w.right.steps (m * (1 / 100) + time) sR ∧ 0 ≤ cL.impactTime ∧ 0 ≤ cR.impactTime ∧
        (cL.position = sL.position ∧ cL.angle = sL.angle ∧ cR.position = sR.position ∧ cR.angle = sR.angle ∧
          (cL.impactTime = cR.impactTime ∨ cL.impactTime = sL.impactTime ∧ cR.impactTime = sR.impactTime)) := by
  obtain ⟨w1, ordered, t, -, hmade⟩ := walking_made h
  have hne : w.outputs.merges ≠ [] := by rw [hmade.outputs]; exact List.length_pos_iff.mp (Zmp.merges_ne_nil hmade.made)
  obtain ⟨m, hm⟩ : ∃ m, w.outputs.merges.getLast? = some m := ⟨_, List.getLast?_eq_some_getLast hne⟩
  have hmin : 0 < strider.planner.minTime := by rw [strider_planner]; norm_num [Planner.realDemo, Planner.new]
  obtain ⟨new, g1, g2, g3, g4, -, fuel, nl, nr, sL, sR, cL, cR, g6, k1, k2, k3, k4, k5⟩ := goes_on_by insertion_sorts h hc hmin (k := w.outputs.merges.length - 1) (m := m)
    (by rw [← List.getLast?_eq_getElem?]; exact hm) changes (by rw [driven_moving]; exact realDemo_willing hk) (by rw [hk]; exact le_refl _)
    (endTime := m * (1 / 100) + time + 20) (by linarith) (q := .plain) (fun _ _ e => by cases e)
    (C115_in_time insertion_sorts h hc (Or.inl ⟨hr, hm⟩) (fun _ _ e => by cases e) _)
  exact ⟨m, new, hm, g1, g2, g4 hr, SameConfig.trans hk g3, fun ht => (told_after driven_integrates g6 ht).1, fuel, nl, nr, sL, sR, cL, cR, g6,
    k1, k2, k3, k4, k5 rfl⟩

/-- Non-vacuity of C125: a robot that stands, is told to walk forward, and then to stop; its walk is replaced any number of times
afterwards, at the end. -/
example (n : Nat) : ∃ (first walk : Leg ℝ) (more : List (Leg ℝ)) (w : Walker ℝ) (time : ℝ),
    Walking drivenInteg insertion (1 / 100) ([first] ++ walk :: more) w time ∧ more.length = n ∧ ToldToStop w.planner ∧
    (takeoffs (executed supportsOf more w)).length ≤ 1 := by
  obtain ⟨w0, h0, c0, s0, r0⟩ := strider_walks drivenSol
  rw [← driven_moving] at h0
  obtain ⟨m0, w1, -, h1, c1, r1, s1, -, -⟩ := driven_next h0 c0 r0 [.setDesiredDirectControl ⟨1 / 50, 0, 0⟩] (SameConfig.trans s0 (by
    simp [runAll, Walker.run, Planner.run, SameConfig]))
  obtain ⟨m1, w2, -, h2, c2, r2, s2, t2, -⟩ := driven_next h1 c1 r1 halt (SameConfig.trans s1 (halt_keeps w1))
  have t2 := t2 (halt_tells w1 s1)
  have key : ∃ (more : List (Leg ℝ)) (w : Walker ℝ) (time : ℝ),
      Walking drivenInteg insertion (1 / 100) ([⟨w0, 0, m0, .plain⟩] ++ ⟨w1, m0 * (1 / 100) + 0, m1, .plain⟩ :: more) w time ∧
      more.length = n ∧
      Everywhere (fun w time => Continuable insertion strider.planner.minTime (1 / 100) w time ∧ ComesToRest (1 / 100) w ∧
        SameConfig realDemo w.planner ∧ ToldToStop w.planner) more w time ∧ ∀ l ∈ more, l.request = .plain ∧ LeftStanding l := by
    induction n with
    | zero => exact ⟨[], w2, _, by simpa using h2, rfl, ⟨by simp, c2, r2, s2, t2⟩, by simp⟩
    | succ n ih =>
      obtain ⟨more, w, time, i1, i2, i3, i4⟩ := ih
      obtain ⟨j1, j2, j3, j4⟩ := i3.2
      obtain ⟨m, new, k1, k2, k3, k4, k5, k6, -⟩ := driven_next i1 j1 j2 [] j3
      refine ⟨more ++ [⟨w, time, m, .plain⟩], new, _, by simpa using k2, by simp [i2], ⟨fun l hl => ?_, k3, k4, k5, k6 j4⟩, fun l hl => ?_⟩
      · rcases List.mem_append.mp hl with hl | hl
        · exact i3.1 l hl
        · simp at hl; rw [hl]; exact i3.2
      · rcases List.mem_append.mp hl with hl | hl
        · exact i4 l hl
        · simp at hl; rw [hl]; exact ⟨rfl, C125_ends_standing i1 j1 j2 k1⟩
  obtain ⟨more, w, time, i1, i2, i3, i4⟩ := key
  refine ⟨_, _, more, w, time, i1, i2, i3.2.2.2.2, C125_for_good driven_integrates insertion_sorts i1 rfl ⟨fun l hl => ?_, i3.2.1.left, i3.2.1.right⟩
    ⟨fun l hl => (i3.1 l hl).1.phases, i3.2.1.phases⟩ ⟨fun l hl => ⟨(i3.1 l hl).2.2.2, ?_⟩, i3.2.2.2.2, rfl, rfl, rfl⟩ i4⟩
  · simp only [List.singleton_append, List.mem_cons] at hl
    rcases hl with rfl | rfl | hl
    · exact ⟨c0.left, c0.right⟩
    · exact ⟨c1.left, c1.right⟩
    · exact ⟨(i3.1 l hl).1.left, (i3.1 l hl).1.right⟩
  · obtain ⟨a1, a2, a3⟩ := stance_same (i3.1 l hl).2.2.1
    obtain ⟨b1, b2, b3⟩ := stance_same i3.2.2.2.1
    exact ⟨a1.trans b1.symm, a2.trans b2.symm, a3.trans b3.symm⟩

end

end Walker
end Uni
