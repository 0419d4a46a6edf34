import Verif.Lemmas.RoundedPlan
import Verif.Lemmas.Binary64
import Verif.Model.PlannerSettings

/-! # C110: planning with floating point times

`RoundedPlan.loop fl p g` is the loop of `computeNewSteps`, every operation on times being rounded by `fl`, with an arbitrary geometry
`g`; `sampleTime fl p n` are the times at which it looks. -/

set_option autoImplicit false
set_option linter.unusedSectionVars false

namespace Uni.RoundedPlan
open Uni Spec
variable {K : Type} [Field K] [LinearOrder K] [IsStrictOrderedRing K] {fl : K → K} {p : Planner K} {g : Geometry K}
variable {left right : Foot K} {prev : Step K}

/-- C110: without rounding, and with the geometry of the planner, this is the loop of C22-C31. -/
theorem C110_exact [Trig K] (sol : K → UState K) (n : Nat) :
    loop id p (exact p sol) n (initialLoop id p left right prev) = p.loop sol n (p.initialLoop left right prev) :=
  loop_exact sol n _

/-- C110: if the times pass the end of the request after `N` periods, the loop ends within `N (N + 3) + 1` iterations, whatever the
geometry. -/
theorem C110_ends {N : Nat} (hN : p.endTime < sampleTime fl p N) (n : Nat) (hn : N * (N + 3) < n) :
    loop fl p g n (initialLoop fl p left right prev) ≠ .outOfFuel := by
  refine loop_ends hN n 0 0 _ (initial_at left right prev) (Nat.zero_le _) ?_
  have : (N - 0) * (N + 2) + (N - 0) = N * (N + 3) := by rw [Nat.sub_zero]; ring
  omega

/-- C110: if they do not, the loop never ends, unless the geometry makes the call fail. -/
theorem C110_never (h : ∀ k, sampleTime fl p k ≤ p.endTime) (n : Nat) :
    loop fl p g n (initialLoop fl p left right prev) = .outOfFuel ∨
    ∃ s, loop fl p g n (initialLoop fl p left right prev) = .failed s := loop_never h n 0 0 _ (initial_at left right prev)

/-- C110: the times do not pass the end if the period is absorbed on the way. -/
theorem C110_absorbed {k : Nat} (h : ∀ j ≤ k, sampleTime fl p j ≤ p.endTime)
    (ha : fl (sampleTime fl p k + p.dT) = sampleTime fl p k) : ∀ n, sampleTime fl p n ≤ p.endTime := by
  have key : ∀ n, sampleTime fl p (k + n) = sampleTime fl p k := by
    intro n
    induction n with
    | zero => rfl
    | succ n ih =>
      rw [← Nat.add_assoc, sampleTime_succ, ih, nextTime, ha, if_neg]
      exact fun hh => absurd hh.1 (not_lt.mpr (h k le_rfl))
  intro n
  rcases Nat.le_total n k with hn | hn
  · exact h n hn
  · obtain ⟨m, rfl⟩ := Nat.exists_eq_add_of_le hn
    rw [key m]; exact h k le_rfl

/-- C110: they pass it if every period counts. -/
theorem C110_progress [FloorSemiring K] {δ : K} (hδ : 0 < δ) (h : ∀ x, p.initTime ≤ x → x ≤ p.endTime → x + δ ≤ fl (x + p.dT)) :
    ∃ k ≤ ⌈(p.endTime - p.initTime) / δ⌉₊ + 3, p.endTime < sampleTime fl p k := by
  by_contra hc
  push Not at hc
  generalize hM : ⌈(p.endTime - p.initTime) / δ⌉₊ = M at hc
  have hlow : ∀ n, n ≤ M + 1 → p.initTime + n * δ ≤ sampleTime fl p n := by
    intro n
    induction n with
    | zero => intro _; simp [sampleTime]
    | succ n ih =>
      intro hn
      have h1 := ih (by omega)
      have h2 := hc n (by omega)
      have h0 : (0 : K) ≤ n * δ := mul_nonneg (Nat.cast_nonneg n) hδ.le
      have h3 := h _ (by linarith) h2
      rw [sampleTime_succ, nextTime]
      by_cases hcap : p.endTime < fl (sampleTime fl p n + p.dT) ∧ sampleTime fl p n < p.endTime
      · exfalso
        have e1 : sampleTime fl p (n + 1) = p.endTime := by rw [sampleTime_succ, nextTime, if_pos hcap]
        have e2 : sampleTime fl p (n + 2) = fl (p.endTime + p.dT) := by
          rw [sampleTime_succ, e1, nextTime, if_neg (fun hh => lt_irrefl _ hh.2)]
        have h4 := hc (n + 2) (by omega)
        have h5 := h p.endTime (by linarith) le_rfl
        rw [e2] at h4
        linarith
      · rw [if_neg hcap]
        push_cast
        linarith
  have h1 := hlow (M + 1) le_rfl
  have h2 := hc (M + 1) (by omega)
  have h3 : (p.endTime - p.initTime) / δ ≤ M := by rw [← hM]; exact Nat.le_ceil _
  rw [div_le_iff₀ hδ] at h3
  push_cast at h1
  linarith

/-- C110: with doubles rounded to nearest every period counts if it is not too short for the times: for times below `2 ^ e`, two to
the power of `e - 53` or more. -/
theorem C110_ieee [FloorRing K] (h : ToNearest fl) {e : ℤ} (he : -1021 ≤ e) (h0 : -2 ^ e ≤ p.initTime) (h1 : p.endTime + p.dT ≤ 2 ^ e)
    (hd : 2 ^ (e - 53) ≤ p.dT) :
    ∃ k ≤ ⌈(p.endTime - p.initTime) / (p.dT / 2)⌉₊ + 3, p.endTime < sampleTime fl p k := by
  have hp : (0 : K) < 2 ^ (e - 53) := zpow_pos (by norm_num) _
  have hd0 : 0 < p.dT := hp.trans_le hd
  refine C110_progress (half_pos hd0) fun x hx0 hx1 => ?_
  have herr := h.error (x := x + p.dT) he (abs_le.mpr ⟨by linarith, by linarith⟩)
  have e2 : (2 : K) ^ (e - 54) = 2 ^ (e - 53) / 2 := by
    rw [show e - 54 = e - 53 - 1 by ring, zpow_sub_one₀ (by norm_num)]; ring
  rw [e2] at herr
  have := (abs_le.mp herr).1
  linarith

/-- One is absorbing: the period `2 ^ (-54)` is lost at time one. -/
theorem absorbs [FloorRing K] (h : ToNearest fl) : fl (1 + 2 ^ (-54 : ℤ)) = 1 := by
  have h54 : (0 : K) < 2 ^ (-54 : ℤ) := zpow_pos (by norm_num) _
  have h1 : Binary64 (1 : K) := ⟨1, 0, by norm_num, by norm_num, by norm_num⟩
  have hn := (h (1 + 2 ^ (-54 : ℤ))).2 1 h1
  rw [add_sub_cancel_left, abs_of_pos h54] at hn
  obtain ⟨l1, l2⟩ := abs_le.mp hn
  obtain ⟨m, e, hm, he, hv⟩ := (h (1 + 2 ^ (-54 : ℤ))).1
  generalize fl (1 + 2 ^ (-54 : ℤ)) = y at *
  have hlow : 1 ≤ y := by linarith
  have hhigh : y ≤ 1 + 2 * 2 ^ (-54 : ℤ) := by linarith
  have h52 : (2 : K) ^ (52 : ℤ) * 2 ^ (-54 : ℤ) = 1 / 4 := by
    rw [← zpow_add₀ (by norm_num)]; norm_num
  by_cases hee : e ≤ -53
  · exfalso
    have hme : (m : K) ≤ 2 ^ 53 - 1 := by
      have : m ≤ 2 ^ 53 - 1 := by have := (abs_lt.mp hm).2; omega
      exact_mod_cast this
    have hpe : (0 : K) < 2 ^ e := zpow_pos (by norm_num) _
    have hle : (2 : K) ^ e ≤ 2 ^ (-53 : ℤ) := zpow_le_zpow_right₀ (by norm_num) hee
    have h53 : (2 : K) ^ 53 * 2 ^ (-53 : ℤ) = 1 := by norm_num
    have h53p : (0 : K) < 2 ^ (-53 : ℤ) := zpow_pos (by norm_num) _
    have a1 : (m : K) * 2 ^ e ≤ (2 ^ 53 - 1) * 2 ^ e := mul_le_mul_of_nonneg_right hme hpe.le
    have a2 : ((2 : K) ^ 53 - 1) * 2 ^ e ≤ (2 ^ 53 - 1) * 2 ^ (-53 : ℤ) :=
      mul_le_mul_of_nonneg_left hle (by norm_num)
    rw [← hv] at a1
    have a3 : ((2 : K) ^ 53 - 1) * 2 ^ (-53 : ℤ) = 1 - 2 ^ (-53 : ℤ) := by rw [sub_mul, h53, one_mul]
    linarith
  · obtain ⟨d, hd⟩ : ∃ d : Nat, e = -52 + d := ⟨(e + 52).toNat, by omega⟩
    have hy : (2 : K) ^ (52 : ℤ) * y = ((m * 2 ^ d : ℤ) : K) := by
      rw [hv, hd]
      push_cast
      rw [zpow_add₀ (by norm_num)]
      have : (2 : K) ^ (52 : ℤ) * 2 ^ (-52 : ℤ) = 1 := by rw [← zpow_add₀ (by norm_num)]; norm_num
      calc (2 : K) ^ (52 : ℤ) * (m * (2 ^ (-52 : ℤ) * 2 ^ (d : ℤ))) = (2 ^ (52 : ℤ) * 2 ^ (-52 : ℤ)) * (m * 2 ^ (d : ℤ)) := by ring
        _ = m * 2 ^ d := by rw [this, one_mul, zpow_natCast]
    have hp52 : (0 : K) < 2 ^ (52 : ℤ) := zpow_pos (by norm_num) _
    have b1 : (2 : K) ^ (52 : ℤ) * 1 ≤ 2 ^ (52 : ℤ) * y := mul_le_mul_of_nonneg_left hlow hp52.le
    have b2 : (2 : K) ^ (52 : ℤ) * y ≤ 2 ^ (52 : ℤ) * (1 + 2 * 2 ^ (-54 : ℤ)) := mul_le_mul_of_nonneg_left hhigh hp52.le
    have b3 : (2 : K) ^ (52 : ℤ) * (1 + 2 * 2 ^ (-54 : ℤ)) = 2 ^ (52 : ℤ) + 2 * (1 / 4) := by rw [← h52]; ring
    rw [b3] at b2
    have hc : (2 : K) ^ (52 : ℤ) = ((2 ^ 52 : ℤ) : K) := by norm_num
    rw [hy, hc] at b1 b2
    have c1 : (2 ^ 52 : ℤ) ≤ m * 2 ^ d := by
      have : (((2 ^ 52 : ℤ)) : K) ≤ ((m * 2 ^ d : ℤ) : K) := by linarith
      exact_mod_cast this
    have c2 : m * 2 ^ d < 2 ^ 52 + 1 := by
      have : ((m * 2 ^ d : ℤ) : K) < ((2 ^ 52 + 1 : ℤ) : K) := by push_cast at b2 ⊢; linarith
      exact_mod_cast this
    have c3 : m * 2 ^ d = 2 ^ 52 := by omega
    rw [c3] at hy
    rw [hc] at hy
    have hne : (((2 ^ 52 : ℤ)) : K) ≠ 0 := by rw [← hc]; exact hp52.ne'
    exact mul_left_cancel₀ hne (by rw [hy, mul_one])

/-- C110: there are requests with a positive period that never return: with a period of `2 ^ (-54)`, beginning at time one. -/
theorem C110_never_witness [FloorRing K] (h : ToNearest fl) (h0 : p.initTime = 1) (h1 : 1 ≤ p.endTime) (hd : p.dT = 2 ^ (-54 : ℤ)) (n : Nat) :
    0 < p.dT ∧ (loop fl p g n (initialLoop fl p left right prev) = .outOfFuel ∨
      ∃ s, loop fl p g n (initialLoop fl p left right prev) = .failed s) := by
  refine ⟨by rw [hd]; exact zpow_pos (by norm_num) _, C110_never (C110_absorbed (k := 0) ?_ ?_) n⟩
  · intro j hj
    rw [Nat.le_zero.mp hj]
    show p.initTime ≤ _
    rw [h0]; exact h1
  · show fl (p.initTime + p.dT) = p.initTime
    rw [h0, hd]; exact absorbs h

/-- C110: the landings added by the loop alternate between the feet, beginning with the swing foot, land at the times at which the
planner looks, not after the end, and after one another by the minimum duration, as far as it can tell.  Whatever the geometry. -/
theorem C110_landings (hg : Faithful g) (hp : (if p.swingLeft then right else left).getLastStep = some prev) {n : Nat} {e : Loop K}
    (h : loop fl p g n (initialLoop fl p left right prev) = .exit e) :
    ∃ log, Landings fl p p.swingLeft prev.impactTime log ∧
      impacts e.left = impacts left ++ (log.filter (·.1)).map (·.2) ∧
      impacts e.right = impacts right ++ (log.filter (!·.1)).map (·.2) := by
  obtain ⟨log, hm⟩ := loop_made hg n 0 0 _ e [] (initial_at left right prev) (initial_made hp) h
  exact ⟨log, hm.ok, hm.lefts, hm.rights⟩

/-- C110: with a positive minimum duration each one lands after the one before. -/
theorem C110_increasing (hf : Rounding fl) (hm : 0 < p.minTime) : ∀ (log : List (Bool × K)) (b : Bool) (t : K),
    Landings fl p b t log → (t :: log.map (·.2)).Pairwise (· < ·)
  | [], _, _, _ => by simp
  | (b', t') :: l, b, t, ⟨_, h2, _, _, h5⟩ => by
    have ih := C110_increasing hf hm l (!b) t' h5
    have hlt : t < t' := by
      by_contra hc
      have := hf.mono (show t' - t ≤ 0 by linarith)
      rw [hf.zero] at this
      linarith
    simp only [List.map_cons]
    refine List.pairwise_cons.mpr ⟨fun x hx => ?_, ih⟩
    rcases List.mem_cons.mp hx with rfl | hx
    · exact hlt
    · exact hlt.trans ((List.pairwise_cons.mp ih).1 x hx)

/-- C110: the steps of the planner are added with the time that was asked for. -/
theorem C110_faithful [Trig K] (sol : K → UState K) : Faithful (exact p sol) := by
  have add : ∀ (f : FootPrint K) (s : Step K), (f.addStep s).1 = true →
      ∃ s', (f.addStep s).2.steps = f.steps ++ [s'] ∧ s'.impactTime = s.impactTime := by
    intro f s h
    unfold FootPrint.addStep FootPrint.addStepRaw at h ⊢
    split_ifs at h ⊢ with h0
    exact ⟨_, rfl, rfl⟩
  refine ⟨fun s t f h => ?_, fun s t f h => ?_⟩
  · simp only [exact, Foot.addStepFromUnicycle] at h
    by_cases h0 : (!s.swing.distanceSet) = true
    · rw [if_pos h0] at h; cases h
    rw [if_neg h0] at h
    have e1 := congrArg Prod.fst h
    have e2 := congrArg Prod.snd h
    simp only at e1 e2
    obtain ⟨s', a1, a2⟩ := add _ _ e1
    refine ⟨s', ?_, a2⟩
    rw [← e2]; exact a1
  · simp only [exact, Foot.addParallelStep] at h
    by_cases h0 : t < 0
    · rw [if_pos h0] at h; cases h
    rw [if_neg h0] at h
    cases ho : s.stance.getLastStep with
    | none => rw [ho] at h; cases h
    | some o =>
      rw [ho] at h
      simp only at h
      have e1 := congrArg Prod.fst h
      have e2 := congrArg Prod.snd h
      simp only at e1 e2
      obtain ⟨s', a1, a2⟩ := add _ _ e1
      refine ⟨s', ?_, a2⟩
      rw [← e2]; exact a1

section
private local instance trigForRoundedPlan : Trig ℚ := ⟨fun _ => 1, fun _ => 0, fun _ => 1, fun _ => 0, fun _ => 0, fun _ _ => 0, 3⟩
private def footq (t : ℚ) : Foot ℚ := { Foot.new ⟨[⟨0, 0, t, ""⟩], ""⟩ with distanceSet := true }
private def planq : Planner ℚ := { Planner.new with dT := 1 / 2, endTime := 12, minTime := 1, maxTime := 5 }
private def geoq : Geometry ℚ where
  tiny := fun _ => false
  tinyBack := fun _ => some false
  land := fun s t => (exact planq fun _ => ⟨0, 0⟩).land s t
  parallel := fun s t => (exact planq fun _ => ⟨0, 0⟩).parallel s t
  weigh := fun _ d => some (some |d - 3|)

/-- Non-vacuity: four landings, with times rounded to multiples of a quarter. -/
example : (match loop (fun x => (⌊x * 4⌋ : ℚ) / 4) planq geoq 400 (initialLoop (fun x => (⌊x * 4⌋ : ℚ) / 4) planq (footq 0) (footq 0) ⟨0, 0, 0, ""⟩) with
    | .exit e => (impacts e.left, impacts e.right)
    | _ => ([], [])) = ([0, 3, 9], [0, 6, 23 / 2]) := by decide +kernel
example : planq.endTime < sampleTime (fun x => (⌊x * 4⌋ : ℚ) / 4) planq 25 := by decide +kernel
end

end Uni.RoundedPlan
