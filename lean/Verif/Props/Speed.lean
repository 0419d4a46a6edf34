import Verif.Spec.Speed
import Verif.Props.CubicFeet

/-! # C97: how fast the feet move

As in `Props/MinJerk` the timelines are the generated ones without empty phases. -/

set_option autoImplicit false
set_option linter.unusedSectionVars false

namespace Uni
open Spec Gen
open MinJerk (Ready)

section
variable {K : Type} [Field K] [LinearOrder K] [IsStrictOrderedRing K]

/-! ## The two profiles -/

private theorem quarter (s : K) : s * (1 - s) ≤ 1 / 4 := by nlinarith [sq_nonneg (s - 1 / 2)]

/-- The minimum-jerk profile is never steeper than 15/8. -/
private theorem blend_slope {a b : K} (ha : 0 ≤ a) (hab : a ≤ b) (hb : b ≤ 1) : blend b - blend a ≤ 15 / 8 * (b - a) := by
  obtain ⟨u, rfl⟩ : ∃ u, a = (u + 1) / 2 := ⟨2 * a - 1, by ring⟩
  obtain ⟨v, rfl⟩ : ∃ v, b = (v + 1) / 2 := ⟨2 * b - 1, by ring⟩
  have hu0 : -1 ≤ u := by linarith
  have hv1 : v ≤ 1 := by linarith
  have huv : u ≤ v := by linarith
  have key : 15 / 8 * ((v + 1) / 2 - (u + 1) / 2) - (blend ((v + 1) / 2) - blend ((u + 1) / 2)) =
      (v - u) * (10 * (v ^ 2 + u * v + u ^ 2) - 3 * (v ^ 4 + v ^ 3 * u + v ^ 2 * u ^ 2 + v * u ^ 3 + u ^ 4)) / 16 := by
    unfold blend; ring
  have hu2 : u ^ 2 ≤ 1 := by nlinarith
  have hv2 : v ^ 2 ≤ 1 := by nlinarith
  have h4 : v ^ 4 ≤ v ^ 2 := by nlinarith [sq_nonneg v]
  have h5 : u ^ 4 ≤ u ^ 2 := by nlinarith [sq_nonneg u]
  have h6 : v ^ 2 * u ^ 2 ≤ v ^ 2 := by nlinarith [sq_nonneg v]
  have h7 : v ^ 2 * u ^ 2 ≤ u ^ 2 := by nlinarith [sq_nonneg u]
  have h8 : v ^ 3 * u + v * u ^ 3 = u * v * (v ^ 2 + u ^ 2) := by ring
  have hpoly : 0 ≤ 10 * (v ^ 2 + u * v + u ^ 2) - 3 * (v ^ 4 + v ^ 3 * u + v ^ 2 * u ^ 2 + v * u ^ 3 + u ^ 4) := by
    rcases le_total 0 (u * v) with h | h
    · have : u * v * (v ^ 2 + u ^ 2) ≤ u * v * 2 := mul_le_mul_of_nonneg_left (by linarith) h
      nlinarith [sq_nonneg v, sq_nonneg u]
    · have : u * v * (v ^ 2 + u ^ 2) ≤ 0 := mul_nonpos_of_nonpos_of_nonneg h (by positivity)
      nlinarith [sq_nonneg v, sq_nonneg u, sq_nonneg (u + v)]
  have := mul_nonneg (sub_nonneg.mpr huv) hpoly
  linarith

/-- The cubic profile is never steeper than 3/2. -/
private theorem ease_slope {a b : K} (ha : 0 ≤ a) (hab : a ≤ b) (hb : b ≤ 1) : ease b - ease a ≤ 3 / 2 * (b - a) := by
  have key : ease b - ease a = (b - a) * ((a * (1 - a)) + 4 * ((a + b) / 2 * (1 - (a + b) / 2)) + b * (1 - b)) := by
    unfold ease; ring
  have h := mul_le_mul_of_nonneg_left (a := b - a)
    (by linarith [quarter a, quarter ((a + b) / 2), quarter b] :
      (a * (1 - a)) + 4 * ((a + b) / 2 * (1 - (a + b) / 2)) + b * (1 - b) ≤ 3 / 2) (sub_nonneg.mpr hab)
  rw [key]; linarith

/-- The number of landings at the end of a swing. -/
private theorem landings_after {ph : List Phase} {a n : Nat} (h : IsSwing ph a n) : landings ph (a + n) = landings ph a + 1 := by
  have hstep : ∀ j, landings ph (j + 1) =
      landings ph j + if ph[j]? = some .swing ∧ ph[j + 1]? ≠ some .swing then 1 else 0 := by
    intro j
    unfold landings
    rw [List.range_succ, List.countP_append]
    simp [List.countP_cons, decide_eq_true_eq]
  have hin : ∀ m, m < n → landings ph (a + m) = landings ph a := by
    intro m
    induction m with
    | zero => intro _; rfl
    | succ m ih =>
      intro hm
      rw [← Nat.add_assoc, hstep, ih (by omega)]
      have := h.all (m + 1) hm
      rw [← Nat.add_assoc] at this
      simp [this]
  have hn := h.pos
  obtain ⟨k, rfl⟩ : ∃ k, n = k + 1 := ⟨n - 1, by omega⟩
  rw [← Nat.add_assoc, hstep, hin k (by omega)]
  have h1 := h.all k (by omega)
  have h2 := h.after
  rw [← Nat.add_assoc] at h2
  simp [h1, h2]

/-- Two points of the way at fractions that are close are close. -/
private theorem near_of {peak : K} {n : Nat} {s s' : Step K} {o o' : FootSample K} {lam lam' : K} (h : OnTheWay s s' lam o)
    (h' : OnTheWay s s' lam' o') (h0 : lam ≤ lam') (h1 : lam' - lam ≤ peak / n) : NearNext peak n s s' o o' := by
  have hsq : (lam' - lam) ^ 2 ≤ (peak / n) ^ 2 := pow_le_pow_left₀ (by linarith) h1 2
  obtain ⟨a1, a2, a3⟩ := h
  obtain ⟨b1, b2, b3⟩ := h'
  constructor
  · have e : (o'.pos.x - o.pos.x) ^ 2 + (o'.pos.y - o.pos.y) ^ 2 = (lam' - lam) ^ 2 * gapSq s s' := by
      rw [a1, a2, b1, b2, gapSq]; ring
    rw [e]
    exact mul_le_mul_of_nonneg_right hsq (by unfold gapSq; positivity)
  · have e : (o'.yaw - o.yaw) ^ 2 = (lam' - lam) ^ 2 * (s'.angle - s.angle) ^ 2 := by rw [a3, b3]; ring
    rw [e]
    exact mul_le_mul_of_nonneg_right hsq (sq_nonneg _)

end

section
variable {K : Type} [Field K] [LinearOrder K] [IsStrictOrderedRing K] [FloorRing K] [Trig K]
variable {cfg : GenSettings K} {left right : FootPrint K} {initTime dT : K} {sorted ordered : List (Ptr K)} {t : Timing K}
variable {c : FeetSettings K} {z0 : K} {lo ro : List (FootSample K)}

/-- The first sample after a swing. -/
private theorem after_swing {swing : Step K → Step K → Nat → Out (List (FootSample K))} {steps : List (Step K)} {ph : List Phase}
    {out : List (FootSample K)} (hrun : FootRun swing steps ph out) {a n : Nat} (hsw : IsSwing ph a n) {s s' : Step K}
    (h5 : steps[landings ph a + 1]? = some s') (o : FootSample K) (hon : out[a + n]? = some o) : OnTheWay s s' 1 o := by
  have hlen := hrun.length
  obtain ⟨p, hp⟩ : ∃ p, ph[a + n]? = some p := by
    obtain ⟨hlt, -⟩ := List.getElem?_eq_some_iff.mp hon
    exact ⟨_, List.getElem?_eq_getElem (by omega)⟩
  have hne : p ≠ .swing := fun hp' => hsw.after (by rw [hp, hp'])
  obtain ⟨s₁, g1, g2⟩ := hrun.on_ground hp hne
  rw [landings_after hsw, h5] at g1
  cases g1
  rw [hon] at g2
  cases g2
  refine ⟨?_, ?_, ?_⟩ <;> simp [restAt]

/-- Samples after a sample on the ground. -/
private theorem after_contact {swing : Step K → Step K → Nat → Out (List (FootSample K))} {steps : List (Step K)} {ph : List Phase}
    {out : List (FootSample K)} (hrun : FootRun swing steps ph out)
    (hfirst : ∀ a n, IsSwing ph a n → ∀ s, steps[landings ph a]? = some s → ∀ o, out[a]? = some o →
      o.pos.x = s.position.x ∧ o.pos.y = s.position.y ∧ o.yaw = s.angle)
    {j : Nat} {p : Phase} (hp : ph[j]? = some p) (hne : p ≠ .swing) {o o' : FootSample K} (ho : out[j]? = some o)
    (ho' : out[j + 1]? = some o') : o'.pos.x = o.pos.x ∧ o'.pos.y = o.pos.y ∧ o'.yaw = o.yaw := by
  obtain ⟨s, g1, g2⟩ := hrun.on_ground hp hne
  rw [ho] at g2
  cases g2
  have hl : landings ph (j + 1) = landings ph j := by
    unfold landings
    rw [List.range_succ, List.countP_append]
    simp [List.countP_cons, hp, hne]
  have hlen := hrun.length
  obtain ⟨q, hq⟩ : ∃ q, ph[j + 1]? = some q := by
    obtain ⟨hlt, -⟩ := List.getElem?_eq_some_iff.mp ho'
    exact ⟨_, List.getElem?_eq_getElem (by omega)⟩
  by_cases hqs : q = .swing
  · subst hqs
    obtain ⟨-, -, a, n, -, k1, k2, k3, -⟩ := hrun.in_swing hq
    have ha : a = j + 1 := by
      by_contra hcon
      have := k3.all (j - a) (by omega)
      rw [show a + (j - a) = j by omega, hp] at this
      exact hne (Option.some.inj this)
    subst ha
    exact hfirst _ n k3 s (by rw [hl]; exact g1) o' ho'
  · obtain ⟨s₂, g3, g4⟩ := hrun.on_ground hq hqs
    rw [hl, g1] at g3
    cases g3
    rw [ho'] at g4
    cases g4
    exact ⟨rfl, rfl, rfl⟩

/-! ## Minimum jerk -/

private theorem jerk_vel {x0 x1 t T : K} :
    (jerkMotion x0 x1 t T).vel = 30 * (t / T * (1 - t / T)) ^ 2 / T * (x1 - x0) := by
  simp only [jerkMotion]; ring

private theorem jerk_acc {x0 x1 t T : K} :
    (jerkMotion x0 x1 t T).acc = 60 * (t / T * (1 - t / T)) * (1 - 2 * (t / T)) / T ^ 2 * (x1 - x0) := by
  simp only [jerkMotion]; ring

private theorem gentle_jerk {T x : K} {s s' : Step K} {z p : Motion K} (hT : 0 < T) (h0 : 0 ≤ x) (h1 : x ≤ T) :
    Gentle (15 / 8) (100 / 3) T s s' (sampleOf (jerkMotion s.position.x s'.position.x x T)
      (jerkMotion s.position.y s'.position.y x T) z p (jerkMotion s.angle s'.angle x T)) := by
  have hx0 : 0 ≤ x / T := div_nonneg h0 hT.le
  have hx1 : x / T ≤ 1 := (div_le_one hT).mpr h1
  have hq0 : 0 ≤ x / T * (1 - x / T) := mul_nonneg hx0 (by linarith)
  have hq1 := quarter (x / T)
  have hv : (30 * (x / T * (1 - x / T)) ^ 2 / T) ^ 2 ≤ (15 / 8 / T) ^ 2 := by
    refine pow_le_pow_left₀ (by positivity) ?_ 2
    have : 30 * (x / T * (1 - x / T)) ^ 2 ≤ 15 / 8 := by nlinarith
    gcongr
  have hg : 0 ≤ gapSq s s' := by unfold gapSq; positivity
  constructor
  · simp only [sampleOf, jerk_vel]
    refine le_trans (le_of_eq ?_) (mul_le_mul_of_nonneg_right hv hg)
    unfold gapSq; ring
  · simp only [sampleOf, rightTrivialized, jerk_vel]
    refine le_trans (le_of_eq ?_) (mul_le_mul_of_nonneg_right hv (sq_nonneg _))
    ring
  · simp only [sampleOf, jerk_acc]
    have ha : (60 * (x / T * (1 - x / T)) * (1 - 2 * (x / T))) ^ 2 ≤ 100 / 3 := by
      have e : (60 * (x / T * (1 - x / T)) * (1 - 2 * (x / T))) ^ 2 =
          3600 * ((x / T * (1 - x / T)) ^ 2 * (1 - 4 * (x / T * (1 - x / T)))) := by ring
      rw [e]
      generalize x / T * (1 - x / T) = y at hq0 hq1
      nlinarith [mul_nonneg (sq_nonneg (6 * y - 1)) (by linarith : 0 ≤ 12 * y + 1)]
    have ha' : (60 * (x / T * (1 - x / T)) * (1 - 2 * (x / T))) ^ 2 / T ^ 4 ≤ 100 / 3 / T ^ 4 := by gcongr
    refine le_trans (le_of_eq ?_) (mul_le_mul_of_nonneg_right ha' hg)
    unfold gapSq
    field_simp

private theorem vertical {T x h : K} (hh : 0 ≤ h) (hT : 0 < T) (h0 : 0 ≤ x) (h1 : x ≤ T) :
    (0 ≤ (jerkMotion 0 h x T).vel ∧ (jerkMotion 0 h x T).vel ≤ 15 / 8 * (h / T)) ∧
    ((jerkMotion h 0 x T).vel ≤ 0 ∧ -(jerkMotion h 0 x T).vel ≤ 15 / 8 * (h / T)) := by
  have hx0 : 0 ≤ x / T := div_nonneg h0 hT.le
  have hx1 : x / T ≤ 1 := (div_le_one hT).mpr h1
  have hq0 : 0 ≤ x / T * (1 - x / T) := mul_nonneg hx0 (by linarith)
  have hq1 := quarter (x / T)
  have hv : 30 * (x / T * (1 - x / T)) ^ 2 ≤ 15 / 8 := by nlinarith
  have hv' := mul_le_mul_of_nonneg_right hv (div_nonneg hh hT.le)
  have hp : 0 ≤ 30 * (x / T * (1 - x / T)) ^ 2 * (h / T) := by positivity
  rw [jerk_vel, jerk_vel]
  have e1 : 30 * (x / T * (1 - x / T)) ^ 2 / T * (h - 0) = 30 * (x / T * (1 - x / T)) ^ 2 * (h / T) := by ring
  have e2 : 30 * (x / T * (1 - x / T)) ^ 2 / T * (0 - h) = -(30 * (x / T * (1 - x / T)) ^ 2 * (h / T)) := by ring
  rw [e1, e2]
  exact ⟨⟨hp, hv'⟩, by linarith, by linarith⟩

/-- C97 (minimum jerk): throughout a swing of `n` samples the foot moves and turns at most 15/8 times as fast as it does on
average over the swing, its acceleration is at most 10/√3 times the distance over the square of the duration, and from each sample
to the next one (the first one after the landing included) it covers at most 15/8 of the mean way.  The vertical speed is at most
15/8 times the step height over the time to the apex, then 15/8 times the step height over the time from the apex. -/
theorem C97_swing (hc : Ready c) (hs : SortedPtrs left right sorted)
    (h : timeline cfg left right initTime dT sorted = .ok (ordered, t)) (hpos : t.shifts.Pairwise (· < ·))
    (ho : MinJerk.computeNewTrajectories c dT left right t.left t.right t.shifts = .ok (lo, ro)) (f : Bool) (a n : Nat)
    (hsw : IsSwing (if f then t.left else t.right) a n) :
    ∃ s s', (if f then left.steps else right.steps)[landings (if f then t.left else t.right) a]? = some s ∧
      (if f then left.steps else right.steps)[landings (if f then t.left else t.right) a + 1]? = some s' ∧
      ∀ m, m < n → ∃ o, (if f then lo else ro)[a + m]? = some o ∧ Gentle (15 / 8) (100 / 3) (n * dT) s s' o ∧
        (if (m : ℤ) < stdRound ((n : K) * c.swingApex)
          then 0 ≤ o.vel.z ∧ o.vel.z ≤ 15 / 8 * (c.stepHeight / (n * dT * c.swingApex))
          else o.vel.z ≤ 0 ∧ -o.vel.z ≤ 15 / 8 * (c.stepHeight / (n * dT * (1 - c.swingApex)))) ∧
        ∀ o', (if f then lo else ro)[a + m + 1]? = some o' → NearNext (15 / 8) n s s' o o' := by
  obtain ⟨l, r, tt, hr⟩ := timeline_ok h
  have hrun := MinJerk.runs_of hc hs h hpos ho f
  obtain ⟨s, s', a', n', l, h1, h2, h3, h4, h5, h6, h7, h8⟩ := hrun.in_swing (by simpa using hsw.all 0 hsw.pos)
  obtain ⟨rfl, rfl⟩ := Uni.IsSwing.unique hsw h3 a (le_refl _) (by have := hsw.pos; omega) h1 h2
  have hn : (0 : K) < n := by exact_mod_cast hsw.pos
  have hd := hr.dT_pos
  have hT : 0 < (n : K) * dT := mul_pos hn hd
  have hget := fun m (hm : m < n) => (h8 m hm).trans (MinJerk.swing_get hd hc.apex_pos hc.apex_lt h6 hm)
  have hway : ∀ m, m < n → ∀ o, (if f then lo else ro)[a + m]? = some o → OnTheWay s s' (blend ((m : K) / n)) o := by
    intro m hm o hom
    rw [hget m hm] at hom
    cases hom
    have e : (m : K) * dT / (n * dT) = m / n := mul_div_mul_right _ _ hd.ne'
    split_ifs <;> refine ⟨?_, ?_, ?_⟩ <;> simp only [MinJerk.sampleUp, MinJerk.sampleDown, sampleOf, jerkMotion, e] <;> ring
  have hend : ∀ o, (if f then lo else ro)[a + n]? = some o → OnTheWay s s' (blend 1) o := by
    rw [blend_one]
    exact after_swing hrun hsw h5
  refine ⟨s, s', h4, h5, fun m hm => ⟨_, hget m hm, ?_, ?_, ?_⟩⟩
  · have hm0 : (0 : K) ≤ m * dT := by positivity
    have hm1 : (m : K) * dT ≤ n * dT := mul_le_mul_of_nonneg_right (by exact_mod_cast hm.le) hd.le
    split_ifs
    · exact gentle_jerk hT hm0 hm1
    · exact gentle_jerk hT hm0 hm1
  · obtain ⟨b1, b2, b3⟩ := MinJerk.rising_bounds c hc.apex_pos n
    have hA : 0 < (n : K) * dT * c.swingApex := mul_pos hT hc.apex_pos
    have hB : 0 < (n : K) * dT * (1 - c.swingApex) := mul_pos hT (by linarith [hc.apex_lt])
    rw [← b3]
    simp only [Nat.cast_lt]
    split_ifs with hup
    · have hup' : (m : K) + 1 ≤ (MinJerk.rising c n : Nat) := by exact_mod_cast hup
      exact (vertical hc.height hA (by positivity) (by nlinarith)).1
    · have hup' : ((MinJerk.rising c n : Nat) : K) ≤ m := by exact_mod_cast not_lt.mp hup
      have hm1 : (m : K) + 1 ≤ n := by exact_mod_cast hm
      exact (vertical hc.height hB (by nlinarith) (by nlinarith)).2
  · intro o' ho'
    have hm1 : (m : K) + 1 ≤ n := by exact_mod_cast hm
    have hfrac : (m : K) / n ≤ (m + 1) / n := by gcongr; linarith
    have hslope : blend (((m : K) + 1) / n) - blend ((m : K) / n) ≤ 15 / 8 / n := by
      refine (blend_slope (by positivity) hfrac ((div_le_one hn).mpr hm1)).trans (le_of_eq ?_)
      field_simp
      ring
    have hmono : blend ((m : K) / n) ≤ blend (((m : K) + 1) / n) :=
      (blend_lt (by positivity) (by gcongr; linarith) ((div_le_one hn).mpr hm1)).le
    refine near_of (hway m hm _ (hget m hm)) ?_ hmono hslope
    rcases Nat.lt_or_ge (m + 1) n with hlt | hge
    · have := hway (m + 1) hlt o' (by rw [← Nat.add_assoc]; exact ho')
      push_cast at this
      exact this
    · have e : m + 1 = n := by omega
      have e' : ((m : K) + 1) / n = 1 := by
        have : ((m : K) + 1) = n := by exact_mod_cast e
        rw [this, div_self hn.ne']
      rw [e']
      exact hend o' (by rw [← e, ← Nat.add_assoc]; exact ho')

/-- C97: after a sample on the ground the foot is still in the same place at the next sample, be it the first one of a swing. -/
theorem C97_standing (hc : Ready c) (hs : SortedPtrs left right sorted)
    (h : timeline cfg left right initTime dT sorted = .ok (ordered, t)) (hpos : t.shifts.Pairwise (· < ·))
    (ho : MinJerk.computeNewTrajectories c dT left right t.left t.right t.shifts = .ok (lo, ro)) (f : Bool) (j : Nat) (p : Phase)
    (hp : (if f then t.left else t.right)[j]? = some p) (hne : p ≠ .swing) (o o' : FootSample K)
    (hj : (if f then lo else ro)[j]? = some o) (hj' : (if f then lo else ro)[j + 1]? = some o') :
    o'.pos.x = o.pos.x ∧ o'.pos.y = o.pos.y ∧ o'.yaw = o.yaw := by
  refine after_contact (MinJerk.runs_of hc hs h hpos ho f) (fun a n hsw s h1 x hx => ?_) hp hne hj hj'
  obtain ⟨s₁, s₂, g1, -, lam, l0, -, -, hall⟩ := MinJerk.C43_swing_partial hc hs h hpos ho f a n hsw
  rw [h1] at g1
  cases g1
  obtain ⟨x', hx', w1, w2, w3⟩ := hall 0 hsw.pos
  rw [Nat.add_zero, hx] at hx'
  cases hx'
  rw [l0] at w1 w2 w3
  exact ⟨by rw [w1]; ring, by rw [w2]; ring, by rw [w3]; ring⟩

/-! ## Cubic splines -/

private theorem hermite_vel {x0 x1 t T : K} (hT : T ≠ 0) :
    (hermite x0 0 x1 0 T t).vel = 6 * (t / T * (1 - t / T)) / T * (x1 - x0) := by
  simp only [hermite]
  field_simp
  ring

private theorem hermite_acc {x0 x1 t T : K} (hT : T ≠ 0) :
    (hermite x0 0 x1 0 T t).acc = 6 * (1 - 2 * (t / T)) / T ^ 2 * (x1 - x0) := by
  simp only [hermite]
  field_simp
  ring

private theorem gentle_cubic {T x : K} {s s' : Step K} {z p : Motion K} (hT : 0 < T) (h0 : 0 ≤ x) (h1 : x ≤ T) :
    Gentle (3 / 2) 36 T s s' (sampleOf (hermite s.position.x 0 s'.position.x 0 T x)
      (hermite s.position.y 0 s'.position.y 0 T x) z p (hermite s.angle 0 s'.angle 0 T x)) := by
  have hx0 : 0 ≤ x / T := div_nonneg h0 hT.le
  have hx1 : x / T ≤ 1 := (div_le_one hT).mpr h1
  have hq0 : 0 ≤ x / T * (1 - x / T) := mul_nonneg hx0 (by linarith)
  have hq1 := quarter (x / T)
  have hv : (6 * (x / T * (1 - x / T)) / T) ^ 2 ≤ (3 / 2 / T) ^ 2 := by
    refine pow_le_pow_left₀ (by positivity) ?_ 2
    have : 6 * (x / T * (1 - x / T)) ≤ 3 / 2 := by linarith
    gcongr
  have hg : 0 ≤ gapSq s s' := by unfold gapSq; positivity
  constructor
  · simp only [sampleOf, hermite_vel hT.ne']
    refine le_trans (le_of_eq ?_) (mul_le_mul_of_nonneg_right hv hg)
    unfold gapSq; ring
  · simp only [sampleOf, rightTrivialized, hermite_vel hT.ne']
    refine le_trans (le_of_eq ?_) (mul_le_mul_of_nonneg_right hv (sq_nonneg _))
    ring
  · simp only [sampleOf, hermite_acc hT.ne']
    have ha : (6 * (1 - 2 * (x / T))) ^ 2 ≤ 36 := by nlinarith
    have ha' : (6 * (1 - 2 * (x / T))) ^ 2 / T ^ 4 ≤ 36 / T ^ 4 := by gcongr
    refine le_trans (le_of_eq ?_) (mul_le_mul_of_nonneg_right ha' hg)
    unfold gapSq
    field_simp

/-- C97 (cubic splines): throughout a swing the foot moves on the ground and turns at most 3/2 times as fast as it does on average, its acceleration
is at most six times the distance over the square of the duration, and from each sample to the next one it covers at most 3/2 of the
mean way. -/
theorem C97_spline_swing (hc : Ready c) (hs : SortedPtrs left right sorted)
    (h : timeline cfg left right initTime dT sorted = .ok (ordered, t)) (hpos : t.shifts.Pairwise (· < ·))
    (ho : CubicFeet.computeNewTrajectories c z0 dT left right t.left t.right t.shifts = .ok (lo, ro)) (f : Bool) (a n : Nat)
    (hsw : IsSwing (if f then t.left else t.right) a n) :
    ∃ s s', (if f then left.steps else right.steps)[landings (if f then t.left else t.right) a]? = some s ∧
      (if f then left.steps else right.steps)[landings (if f then t.left else t.right) a + 1]? = some s' ∧
      ∀ m, m < n → ∃ o, (if f then lo else ro)[a + m]? = some o ∧ Gentle (3 / 2) 36 (n * dT) s s' o ∧
        ∀ o', (if f then lo else ro)[a + m + 1]? = some o' → NearNext (3 / 2) n s s' o o' := by
  obtain ⟨hd, s, s', h4, h5, hget⟩ := CubicFeet.in_swing hc hs h hpos ho f a n hsw
  have hrun := CubicFeet.runs_of hc hs h hpos ho f
  have hn : (0 : K) < n := by exact_mod_cast hsw.pos
  have hT : 0 < (n : K) * dT := mul_pos hn hd
  have hway : ∀ m, m < n → ∀ o, (if f then lo else ro)[a + m]? = some o → OnTheWay s s' (ease ((m : K) / n)) o := by
    intro m hm o hom
    rw [hget m hm] at hom
    cases hom
    have e : (m : K) * dT / (n * dT) = m / n := mul_div_mul_right _ _ hd.ne'
    refine ⟨?_, ?_, ?_⟩ <;> simp only [CubicFeet.curve, sampleOf] <;> rw [hermite_rest _ _ hT.ne', e]
  refine ⟨s, s', h4, h5, fun m hm => ⟨_, hget m hm, ?_, ?_⟩⟩
  · exact gentle_cubic hT (by positivity) (mul_le_mul_of_nonneg_right (by exact_mod_cast hm.le) hd.le)
  · intro o' ho'
    have hm1 : (m : K) + 1 ≤ n := by exact_mod_cast hm
    have hfrac : (m : K) / n ≤ (m + 1) / n := by gcongr; linarith
    have hslope : ease (((m : K) + 1) / n) - ease ((m : K) / n) ≤ 3 / 2 / n := by
      refine (ease_slope (by positivity) hfrac ((div_le_one hn).mpr hm1)).trans (le_of_eq ?_)
      field_simp
      ring
    have hmono : ease ((m : K) / n) ≤ ease (((m : K) + 1) / n) :=
      (ease_lt (by positivity) (by gcongr; linarith) ((div_le_one hn).mpr hm1)).le
    refine near_of (hway m hm _ (hget m hm)) ?_ hmono hslope
    rcases Nat.lt_or_ge (m + 1) n with hlt | hge
    · have := hway (m + 1) hlt o' (by rw [← Nat.add_assoc]; exact ho')
      push_cast at this
      exact this
    · have e : m + 1 = n := by omega
      have e' : ((m : K) + 1) / n = 1 := by
        have : ((m : K) + 1) = n := by exact_mod_cast e
        rw [this, div_self hn.ne']
      rw [e', ease_one]
      exact after_swing hrun hsw h5 o' (by rw [← e, ← Nat.add_assoc]; exact ho')

/-- C97 (cubic splines): after a sample on the ground the foot is still in the same place at the next sample. -/
theorem C97_spline_standing (hc : Ready c) (hs : SortedPtrs left right sorted)
    (h : timeline cfg left right initTime dT sorted = .ok (ordered, t)) (hpos : t.shifts.Pairwise (· < ·))
    (ho : CubicFeet.computeNewTrajectories c z0 dT left right t.left t.right t.shifts = .ok (lo, ro)) (f : Bool) (j : Nat) (p : Phase)
    (hp : (if f then t.left else t.right)[j]? = some p) (hne : p ≠ .swing) (o o' : FootSample K)
    (hj : (if f then lo else ro)[j]? = some o) (hj' : (if f then lo else ro)[j + 1]? = some o') :
    o'.pos.x = o.pos.x ∧ o'.pos.y = o.pos.y ∧ o'.yaw = o.yaw := by
  refine after_contact (CubicFeet.runs_of hc hs h hpos ho f) (fun a n hsw s h1 x hx => ?_) hp hne hj hj'
  obtain ⟨s₁, s₂, g1, -, lam, l0, -, -, hall⟩ := CubicFeet.C43_spline_swing_partial hc hs h hpos ho f a n hsw
  rw [h1] at g1
  cases g1
  obtain ⟨x', hx', w1, w2, w3⟩ := hall 0 hsw.pos
  rw [Nat.add_zero, hx] at hx'
  cases hx'
  rw [l0] at w1 w2 w3
  exact ⟨by rw [w1]; ring, by rw [w2]; ring, by rw [w3]; ring⟩

end

/-! ## Non-vacuity -/

private local instance speedTrig : Trig ℚ := ⟨fun _ => 1, fun _ => 0, fun x => x, fun x => x, fun x => x, fun x _ => x, 3⟩

private def stepAt (x t : ℚ) (n : String) : Step ℚ := ⟨⟨x, 0⟩, 0, t, n⟩
private def leftWalk : FootPrint ℚ := ⟨[stepAt 0 0 "left", stepAt 1 4 "left"], "left"⟩
private def rightWalk : FootPrint ℚ := ⟨[stepAt 0 0 "right"], "right"⟩
private def walk : List (Ptr ℚ) := [⟨true, 0, stepAt 0 0 "left"⟩, ⟨false, 0, stepAt 0 0 "right"⟩, ⟨true, 1, stepAt 1 4 "left"⟩]
private def feetSettings : FeetSettings ℚ := ⟨1, 0, 1 / 2, 0⟩

private def velocities : Out (List Nat × List ℚ × List ℚ) := do
  let t ← timeline GenSettings.new leftWalk rightWalk 0 1 walk
  let o ← MinJerk.computeNewTrajectories feetSettings 1 leftWalk rightWalk t.2.left t.2.right t.2.shifts
  let o' ← CubicFeet.computeNewTrajectories feetSettings 0 1 leftWalk rightWalk t.2.left t.2.right t.2.shifts
  .ok (t.2.shifts, o.1.map (·.vel.x), o'.1.map (·.vel.x))

/-- Non-vacuity of C97: a swing over a distance 1 in the time 2; the bounds 15/8 and 3/2 of the mean speed are attained. -/
example : Ready feetSettings ∧ SortedPtrs leftWalk rightWalk walk ∧ ([0, 2, 4, 5] : List Nat).Pairwise (· < ·) ∧
    velocities = .ok ([0, 2, 4, 5], [0, 0, 0, 15 / 8 * (1 / 2), 0], [0, 0, 0, 3 / 2 * (1 / 2), 0]) ∧
    IsSwing [.switchOut, .switchOut, .swing, .swing, .switchIn] 2 2 :=
  ⟨⟨by decide +kernel, by decide +kernel, by decide +kernel⟩, by unfold SortedPtrs; decide +kernel, by decide,
    by decide +kernel, ⟨by omega, by decide, by decide, by decide⟩⟩

end Uni
