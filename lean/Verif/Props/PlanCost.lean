import Verif.Props.Planner

/-! # C26: the cost that is minimised -/

set_option autoImplicit false
set_option linter.unusedSectionVars false

namespace Uni.Planner
open Spec

variable {K : Type*} [Field K] [LinearOrder K] [Trig K] [IsStrictOrderedRing K]
variable {p p' : Planner K} {integ : Integrator K} {fuel : Nat} {left right left' right' : FootPrint K} {t0 t1 : K}

/-- **C26**, the cost: a candidate sample costs the time weight over the square of the duration of the step (net of the pause),
plus the position weight times the squared distance between the new step and the step on which the robot stands; the weights are
those configured. -/
theorem C26_cost (htrig : ∀ θ : K, Trig.cos θ ^ 2 + Trig.sin θ ^ 2 = 1) {d : Plan K}
    (hd : PlanOf p integ left right t0 t1 left' right' d) (c : Stance K) (k : Nat) (duration : K) :
    (d.search c).cost k duration = p.problem.timeWeight / duration ^ 2 + p.problem.positionWeight *
      (((stepOf (d.foot c.left) (d.sol ((d.search c).time k)) ((d.search c).time k)).position.x - c.prev.position.x) ^ 2 +
       ((stepOf (d.foot c.left) (d.sol ((d.search c).time k)) ((d.search c).time k)).position.y - c.prev.position.y) ^ 2) := by
  have hq : d.q.problem = p.problem := by rw [hd.begins.eq]
  have key : ∀ (θ : K) (a : Vec2 K), (rotT θ a).x ^ 2 + (rotT θ a).y ^ 2 = a.x ^ 2 + a.y ^ 2 := by
    intro θ a
    simp only [rotT]
    linear_combination (a.x ^ 2 + a.y ^ 2) * htrig θ
  have hcost : ∀ a b : Vec2 K, ∀ x : K, p.problem.timeWeight * (1 / duration) ^ 2 + x * ((a - b).x ^ 2 + (a - b).y ^ 2) =
      p.problem.timeWeight / duration ^ 2 + x * ((a.x - b.x) ^ 2 + (a.y - b.y) ^ 2) := by
    intro a b x
    rw [one_div, inv_pow, ← div_eq_mul_inv, Vec2.sub_x, Vec2.sub_y]
  show d.q.problem.cost (dataOf d.left d.right c.left c.prev (d.sol ((d.search c).time k)) duration) = _
  generalize (d.search c).time k = t
  rw [hq]
  simp only [Problem.cost, dataOf, Plan.foot, stepOf]
  cases c.left
  · simp only [Bool.false_eq_true, if_false, key, hcost]
    ring
  · simp only [if_true, key, hcost]

section
private local instance costTrig : Trig ℚ := ⟨fun _ => 1, fun _ => 0, fun x => x, fun x => 1 + x, fun x => x, fun _ _ => 0, 22 / 7⟩

/-- Non-vacuity of C26_cost: with unit weights, a step of one second that lands one metre ahead costs two. -/
example : (∀ θ : ℚ, Trig.cos θ ^ 2 + Trig.sin θ ^ 2 = 1) ∧
    ((Planner.new : Planner ℚ).runAll [.setCostWeights 1 1]).problem.cost
      (dataOf (leftFoot Planner.new ⟨[], "left"⟩) (rightFoot Planner.new ⟨[], "right"⟩) true ⟨⟨0, -7 / 100⟩, 0, 0, "right"⟩ ⟨⟨1, -14 / 100⟩, 0⟩ 1)
      = 2 := ⟨fun θ => by simp [Trig.cos, Trig.sin], by decide +kernel⟩

end

end Uni.Planner
