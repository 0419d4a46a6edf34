import Verif.Spec.Phases

/-! # Sampling that is fine enough for a walk -/

set_option autoImplicit false

namespace Uni.Spec

/-- A sampling period fine enough for steps that last at least `gap`: with half a sample lost at each end there is still room for
a sample of each phase. -/
structure FineFor {K : Type} [Field K] [LinearOrder K] (cfg : GenSettings K) (gap dT : K) : Prop where
  double : dT / 2 ≤ cfg.switchPercentage / 2 * (gap - dT / 2)
  single : dT ≤ (1 - cfg.switchPercentage) * (gap - dT / 2)
  pause : cfg.pauseActive = true → dT ≤ (1 - cfg.switchPercentage) * cfg.nominalStepTime
  last : dT / 2 ≤ cfg.endSwitch

end Uni.Spec
