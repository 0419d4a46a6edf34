import Verif.Model.Generator

/-! # How fast the load may move -/

set_option autoImplicit false

namespace Uni.Spec

/-- The phase that comes after one, for a foot. -/
def _root_.Uni.Phase.after : Phase → Phase
  | .switchIn => .stance
  | .stance => .switchOut
  | .switchOut => .swing
  | .swing => .switchIn

section
variable {K : Type} [Field K] [LinearOrder K] [FloorRing K]

/-- Whether the load waits in the middle during a double support of `n` samples. -/
def Waits (cfg : GenSettings K) (dT : K) (n : Nat) : Prop :=
  cfg.pauseActive = true ∧
    max (cfg.switchPercentage * cfg.maxStepTime) (cfg.endSwitch + cfg.switchPercentage * cfg.nominalStepTime) < (n : K) * dT

/-- The number of samples in which the load leaves the middle after having waited there. -/
def leaving (cfg : GenSettings K) (dT : K) : Nat := (stdRound (cfg.switchPercentage * cfg.nominalStepTime / dT)).toNat

open Classical in
/-- The fastest that the load goes from a foot to the other during a double support of `n` samples: half as much again as
its average speed (`c` for the way to the middle, if it waits there). -/
noncomputable def transferRate (cfg : GenSettings K) (dT : K) (n : Nat) (c : K) : K :=
  if Waits cfg dT n then max (c / 2 / cfg.endSwitch) (3 / 2 / 2 / ((leaving cfg dT : K) * dT)) else 3 / 2 / ((n : K) * dT)

open Classical in
/-- The same for its acceleration. -/
noncomputable def transferAcc (cfg : GenSettings K) (dT : K) (n : Nat) (v : K) : K :=
  if Waits cfg dT n then max (6 / 2 / cfg.endSwitch ^ 2 + 4 * v / cfg.endSwitch) (6 / 2 / ((leaving cfg dT : K) * dT) ^ 2)
  else 6 / ((n : K) * dT) ^ 2 + 4 * v / ((n : K) * dT)

end
end Uni.Spec
