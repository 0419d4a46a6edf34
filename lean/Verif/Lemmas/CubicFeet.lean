import Verif.Model.CubicFeet
import Verif.Lemmas.Spline
import Verif.Lemmas.FeetWalk

/-! # Swings of the cubic-spline generator -/

set_option autoImplicit false
set_option linter.unusedSectionVars false

namespace Uni
namespace CubicFeet

section
variable {K : Type} [Field K] [LinearOrder K] [IsStrictOrderedRing K] [Trig K]

/-- The vertical motion of a swing of duration `L`. -/
def heightAt (c : FeetSettings K) (z0 L t : K) : Motion K :=
  spline3At z0 0 c.stepHeight 0 c.landingVelocity (c.swingApex * L) L t

/-- The curve from which the samples of a swing of duration `L` are taken. -/
def curve (c : FeetSettings K) (z0 : K) (s s' : Step K) (L t : K) : FootSample K :=
  sampleOf (hermite s.position.x 0 s'.position.x 0 L t) (hermite s.position.y 0 s'.position.y 0 L t) (heightAt c z0 L t)
    (spline3At 0 0 c.pitchDelta 0 0 (c.swingApex * L) L t) (hermite s.angle 0 s'.angle 0 L t)

theorem swing_ok {c : FeetSettings K} {dT : K} (z0 : K) (hd : 0 < dT) (h0 : 0 < c.swingApex) (h1 : c.swingApex < 1)
    (s s' : Step K) {n : Nat} (hn : 0 < n) :
    swing c z0 dT s s' n = .ok ((List.range n).map fun (j : Nat) => curve c z0 s s' (n * dT) (j * dT)) := by
  have hL : (0 : K) < n * dT := mul_pos (by exact_mod_cast hn) hd
  have ha : 0 < c.swingApex * (n * dT) := mul_pos h0 hL
  have hb : c.swingApex * (n * dT) < n * dT := by nlinarith
  unfold swing
  simp only [spline2_ok _ _ _ _ hL, spline3_ok _ _ _ _ _ ha hb, Out.bind_ok]
  rfl

theorem swing_total {c : FeetSettings K} {dT : K} (z0 : K) (hd : 0 < dT) (h0 : 0 < c.swingApex) (h1 : c.swingApex < 1)
    (s s' : Step K) (n : Nat) (hn : 0 < n) : ∃ l, swing c z0 dT s s' n = .ok l ∧ l.length = n :=
  ⟨_, swing_ok z0 hd h0 h1 s s' hn, by simp⟩

/-- A swing without samples cannot be interpolated. -/
theorem swing_zero (c : FeetSettings K) (z0 dT : K) (s s' : Step K) : swing c z0 dT s s' 0 = .fail := by
  simp [swing, spline2]

theorem swing_get {c : FeetSettings K} {dT z0 : K} (hd : 0 < dT) (h0 : 0 < c.swingApex) (h1 : c.swingApex < 1)
    {s s' : Step K} {n : Nat} {l : List (FootSample K)} (h : swing c z0 dT s s' n = .ok l) {m : Nat} (hm : m < n) :
    l[m]? = some (curve c z0 s s' (n * dT) (m * dT)) := by
  rw [swing_ok z0 hd h0 h1 s s' (by omega)] at h
  cases h
  rw [List.getElem?_map, List.getElem?_range hm]
  rfl

/-- The velocity at the apex. -/
theorem mid_eq (c : FeetSettings K) {T0 T1 : K} (h0 : 0 < T0) (h1 : 0 < T1) :
    midVelocity 0 0 c.stepHeight 0 c.landingVelocity T0 T1 =
      3 * c.stepHeight * (T1 - T0) / (2 * (T0 * T1)) - T0 * c.landingVelocity / (2 * (T0 + T1)) := by
  have a := h0.ne'
  have b := h1.ne'
  have d : 2 * (T0 + T1) ≠ 0 := by positivity
  unfold midVelocity
  field_simp
  ring

/-- Rising half, on the ground at the beginning. -/
theorem rise (c : FeetSettings K) {T0 v t : K} (h0 : 0 < T0) :
    (hermite 0 0 c.stepHeight v T0 t).pos =
      (t / T0) ^ 2 * (c.stepHeight * (3 - 2 * (t / T0)) - v * T0 * (1 - t / T0)) := by
  rw [hermite_pos _ _ _ _ h0.ne']; ring

/-- Falling half. -/
theorem fall (c : FeetSettings K) {T1 v t : K} (h1 : 0 < T1) :
    (hermite c.stepHeight v 0 c.landingVelocity T1 t).pos =
      (1 - t / T1) * ((1 - t / T1) * (c.stepHeight * (1 + 2 * (t / T1)) + v * T1 * (t / T1)) -
        c.landingVelocity * T1 * (t / T1) ^ 2) := by
  rw [hermite_pos _ _ _ _ h1.ne']; ring

/-- The swing stays above the ground if the foot touches down with a moderate downward velocity. -/
theorem above {c : FeetSettings K} {L t : K} (hz : 0 ≤ c.stepHeight) (ha0 : 0 < c.swingApex) (ha1 : c.swingApex < 1) (hL : 0 < L)
    (hv : c.landingVelocity ≤ 0) (hb : -c.landingVelocity * (c.swingApex ^ 2 * (1 - c.swingApex) * L) ≤ 3 * c.stepHeight)
    (h0 : 0 ≤ t) (h1 : t ≤ L) : 0 ≤ (heightAt c 0 L t).pos := by
  have hT0 : 0 < c.swingApex * L := mul_pos ha0 hL
  have hT1 : 0 < L - c.swingApex * L := by nlinarith
  have hm := mid_eq c hT0 hT1
  simp only [heightAt, spline3At]
  rw [hm]
  have es : c.swingApex * L + (L - c.swingApex * L) = L := by ring
  rw [es]
  generalize c.stepHeight = h at *
  generalize hw : c.landingVelocity = w at *
  split_ifs with ht
  · rw [hermite_pos _ _ _ _ hT0.ne']
    have s0 : 0 ≤ t / (c.swingApex * L) := div_nonneg h0 hT0.le
    have s1 : t / (c.swingApex * L) ≤ 1 := (div_le_one hT0).mpr ht
    generalize t / (c.swingApex * L) = s at s0 s1
    have e : (3 * h * (L - c.swingApex * L - c.swingApex * L) / (2 * (c.swingApex * L * (L - c.swingApex * L))) -
        c.swingApex * L * w / (2 * L)) * (c.swingApex * L) =
        (3 * h * (1 - 2 * c.swingApex) + -w * (c.swingApex ^ 2 * (1 - c.swingApex) * L)) / (2 * (1 - c.swingApex)) := by
      have x1 := hL.ne'
      have x2 := ha0.ne'
      have x3 : (1 - c.swingApex) ≠ 0 := by linarith
      have x4 : L - c.swingApex * L = L * (1 - c.swingApex) := by ring
      rw [x4]
      field_simp
      ring
    have hle : (3 * h * (1 - 2 * c.swingApex) + -w * (c.swingApex ^ 2 * (1 - c.swingApex) * L)) / (2 * (1 - c.swingApex)) ≤ 3 * h := by
      rw [div_le_iff₀ (by linarith)]; nlinarith
    rw [← e] at hle
    generalize (3 * h * (L - c.swingApex * L - c.swingApex * L) / (2 * (c.swingApex * L * (L - c.swingApex * L))) -
        c.swingApex * L * w / (2 * L)) * (c.swingApex * L) = q at hle
    have : 0 ≤ s ^ 2 * (h * (3 - 2 * s) - q * (1 - s)) := by
      refine mul_nonneg (sq_nonneg _) ?_
      nlinarith
    linarith
  · have hT1' : L - c.swingApex * L ≠ 0 := hT1.ne'
    rw [hermite_pos _ _ _ _ hT1.ne']
    have s0 : 0 ≤ (t - c.swingApex * L) / (L - c.swingApex * L) := div_nonneg (by linarith) hT1.le
    have s1 : (t - c.swingApex * L) / (L - c.swingApex * L) ≤ 1 := (div_le_one hT1).mpr (by linarith)
    generalize (t - c.swingApex * L) / (L - c.swingApex * L) = s at s0 s1
    have e : (3 * h * (L - c.swingApex * L - c.swingApex * L) / (2 * (c.swingApex * L * (L - c.swingApex * L))) -
        c.swingApex * L * w / (2 * L)) * (L - c.swingApex * L) =
        3 * h * (1 - 2 * c.swingApex) / (2 * c.swingApex) + c.swingApex * -w * (L - c.swingApex * L) / 2 := by
      have x1 := hL.ne'
      have x2 := ha0.ne'
      have x3 : (1 - c.swingApex) ≠ 0 := by linarith
      have x4 : L - c.swingApex * L = L * (1 - c.swingApex) := by ring
      rw [x4]
      field_simp
      ring
    have h3 : -(3 / 2) * h ≤ 3 * h * (1 - 2 * c.swingApex) / (2 * c.swingApex) := by
      rw [le_div_iff₀ (by linarith)]; nlinarith
    have h4 : 0 ≤ c.swingApex * -w * (L - c.swingApex * L) / 2 := by
      have : 0 ≤ -w := by linarith
      positivity
    generalize hq : (3 * h * (L - c.swingApex * L - c.swingApex * L) / (2 * (c.swingApex * L * (L - c.swingApex * L))) -
        c.swingApex * L * w / (2 * L)) * (L - c.swingApex * L) = q at e
    have h5 : -(3 / 2) * h ≤ q := by rw [e]; linarith
    have h6 : 0 ≤ (1 - s) ^ 2 * (h * (1 + 2 * s) + q * s) := by
      refine mul_nonneg (sq_nonneg _) ?_
      nlinarith
    have h7 : 0 ≤ -w * (L - c.swingApex * L) * (s ^ 2 * (1 - s)) := by
      have a : 0 ≤ -w := by linarith
      have b : 0 ≤ 1 - s := by linarith
      positivity
    nlinarith

/-- How far the swing can exceed the step height if the foot lands at rest. -/
theorem below {c : FeetSettings K} {L t : K} (hz : 0 ≤ c.stepHeight) (ha0 : 0 < c.swingApex) (ha1 : c.swingApex < 1) (hL : 0 < L)
    (hv : c.landingVelocity = 0) (h0 : 0 ≤ t) (h1 : t ≤ L) :
    (heightAt c 0 L t).pos ≤ c.stepHeight *
      (1 + 2 / 9 * (max (c.swingApex / (1 - c.swingApex)) ((1 - c.swingApex) / c.swingApex) - 1)) := by
  have hT0 : 0 < c.swingApex * L := mul_pos ha0 hL
  have hT1 : 0 < L - c.swingApex * L := by nlinarith
  have hm := mid_eq c hT0 hT1
  have hq : ∀ s : K, 0 ≤ s → s ≤ 1 → s * (1 - s) ^ 2 ≤ 4 / 27 := by
    intro s s0 s1
    have : 0 ≤ (1 / 3 - s) ^ 2 * (4 / 3 - s) := mul_nonneg (sq_nonneg _) (by linarith)
    nlinarith
  have x1 := hL.ne'
  have x2 := ha0.ne'
  have a1 : 0 < 1 - c.swingApex := by linarith
  have x3 := a1.ne'
  have x4 : L - c.swingApex * L = L * (1 - c.swingApex) := by ring
  simp only [heightAt, spline3At]
  rw [hm, hv, mul_zero, zero_div, sub_zero]
  generalize c.stepHeight = h at *
  split_ifs with ht
  · rw [hermite_pos _ _ _ _ hT0.ne']
    have s0 : 0 ≤ t / (c.swingApex * L) := div_nonneg h0 hT0.le
    have s1 : t / (c.swingApex * L) ≤ 1 := (div_le_one hT0).mpr ht
    generalize t / (c.swingApex * L) = s at s0 s1
    have e : 3 * h * (L - c.swingApex * L - c.swingApex * L) / (2 * (c.swingApex * L * (L - c.swingApex * L))) * (c.swingApex * L) =
        -(3 / 2 * h * (c.swingApex / (1 - c.swingApex) - 1)) := by
      rw [x4]; field_simp; ring
    rw [e]
    have hs := hq (1 - s) (by linarith) (by linarith)
    rw [sub_sub_cancel] at hs
    have hs0 : 0 ≤ (1 - s) * s ^ 2 := mul_nonneg (by linarith) (sq_nonneg _)
    have he : s ^ 2 * (3 - 2 * s) ≤ 1 := ease_le_one s0 s1
    have hmax : c.swingApex / (1 - c.swingApex) - 1 ≤ max (c.swingApex / (1 - c.swingApex)) ((1 - c.swingApex) / c.swingApex) - 1 := by
      linarith [le_max_left (c.swingApex / (1 - c.swingApex)) ((1 - c.swingApex) / c.swingApex)]
    have hmax0 : 0 ≤ max (c.swingApex / (1 - c.swingApex)) ((1 - c.swingApex) / c.swingApex) - 1 := by
      rcases le_total c.swingApex (1 / 2) with hh | hh
      · have : 1 ≤ (1 - c.swingApex) / c.swingApex := by rw [le_div_iff₀ ha0]; linarith
        linarith [le_max_right (c.swingApex / (1 - c.swingApex)) ((1 - c.swingApex) / c.swingApex)]
      · have : 1 ≤ c.swingApex / (1 - c.swingApex) := by rw [le_div_iff₀ a1]; linarith
        linarith [le_max_left (c.swingApex / (1 - c.swingApex)) ((1 - c.swingApex) / c.swingApex)]
    generalize max (c.swingApex / (1 - c.swingApex)) ((1 - c.swingApex) / c.swingApex) - 1 = M at hmax hmax0
    generalize c.swingApex / (1 - c.swingApex) - 1 = u at hmax
    have k1 : h * (s ^ 2 * (3 - 2 * s)) ≤ h * 1 := mul_le_mul_of_nonneg_left he hz
    have k2 : 3 / 2 * h * u * ((1 - s) * s ^ 2) ≤ 3 / 2 * h * M * ((1 - s) * s ^ 2) := by
      refine mul_le_mul_of_nonneg_right ?_ hs0
      nlinarith
    have k3 : 3 / 2 * h * M * ((1 - s) * s ^ 2) ≤ 3 / 2 * h * M * (4 / 27) :=
      mul_le_mul_of_nonneg_left hs (by positivity)
    nlinarith
  · rw [hermite_pos _ _ _ _ hT1.ne']
    have s0 : 0 ≤ (t - c.swingApex * L) / (L - c.swingApex * L) := div_nonneg (by linarith) hT1.le
    have s1 : (t - c.swingApex * L) / (L - c.swingApex * L) ≤ 1 := (div_le_one hT1).mpr (by linarith)
    generalize (t - c.swingApex * L) / (L - c.swingApex * L) = s at s0 s1
    have e : 3 * h * (L - c.swingApex * L - c.swingApex * L) / (2 * (c.swingApex * L * (L - c.swingApex * L))) * (L - c.swingApex * L) =
        3 / 2 * h * ((1 - c.swingApex) / c.swingApex - 1) := by
      rw [x4]; field_simp
    rw [e]
    have hs := hq s s0 s1
    have hs0 : 0 ≤ s * (1 - s) ^ 2 := mul_nonneg s0 (sq_nonneg _)
    have he : (1 - s) ^ 2 * (1 + 2 * s) ≤ 1 := by
      have := ease_nonneg s0 s1
      unfold ease at this
      nlinarith
    have hmax : (1 - c.swingApex) / c.swingApex - 1 ≤ max (c.swingApex / (1 - c.swingApex)) ((1 - c.swingApex) / c.swingApex) - 1 := by
      linarith [le_max_right (c.swingApex / (1 - c.swingApex)) ((1 - c.swingApex) / c.swingApex)]
    have hmax0 : 0 ≤ max (c.swingApex / (1 - c.swingApex)) ((1 - c.swingApex) / c.swingApex) - 1 := by
      rcases le_total c.swingApex (1 / 2) with hh | hh
      · have : 1 ≤ (1 - c.swingApex) / c.swingApex := by rw [le_div_iff₀ ha0]; linarith
        linarith [le_max_right (c.swingApex / (1 - c.swingApex)) ((1 - c.swingApex) / c.swingApex)]
      · have : 1 ≤ c.swingApex / (1 - c.swingApex) := by rw [le_div_iff₀ a1]; linarith
        linarith [le_max_left (c.swingApex / (1 - c.swingApex)) ((1 - c.swingApex) / c.swingApex)]
    generalize max (c.swingApex / (1 - c.swingApex)) ((1 - c.swingApex) / c.swingApex) - 1 = M at hmax hmax0
    generalize (1 - c.swingApex) / c.swingApex - 1 = u at hmax
    have k1 : h * ((1 - s) ^ 2 * (1 + 2 * s)) ≤ h * 1 := mul_le_mul_of_nonneg_left he hz
    have k2 : 3 / 2 * h * u * (s * (1 - s) ^ 2) ≤ 3 / 2 * h * M * (s * (1 - s) ^ 2) := by
      refine mul_le_mul_of_nonneg_right ?_ hs0
      nlinarith
    have k3 : 3 / 2 * h * M * (s * (1 - s) ^ 2) ≤ 3 / 2 * h * M * (4 / 27) :=
      mul_le_mul_of_nonneg_left hs (by positivity)
    nlinarith

end
end CubicFeet
end Uni
