import Verif.Spec.Special
import Verif.Spec.Rounded
import Mathlib.Tactic.Linarith

/-! # When operations on doubles give numbers -/

set_option autoImplicit false
set_option linter.unusedSectionVars false

namespace Uni
open Spec

namespace Dbl
variable {K : Type} [Field K] [LinearOrder K] {fl : K → Dbl K} {x y : Dbl K} {z : K}

theorem add_num (h : add fl x y = num z) : ∃ a b, x = num a ∧ y = num b ∧ fl (a + b) = num z := by
  cases x with
  | nan => cases h
  | inf a => cases y with
    | nan => cases h
    | inf b => simp only [add] at h; split_ifs at h
    | num b => cases h
  | num a => cases y with
    | nan => cases h
    | inf b => cases h
    | num b => exact ⟨a, b, rfl, rfl, h⟩

theorem sub_num (h : sub fl x y = num z) : ∃ a b, x = num a ∧ y = num b ∧ fl (a - b) = num z := by
  cases x with
  | nan => cases h
  | inf a => cases y with
    | nan => cases h
    | inf b => simp only [sub] at h; split_ifs at h
    | num b => cases h
  | num a => cases y with
    | nan => cases h
    | inf b => cases h
    | num b => exact ⟨a, b, rfl, rfl, h⟩

theorem mul_num (h : mul fl x y = num z) : ∃ a b, x = num a ∧ y = num b ∧ fl (a * b) = num z := by
  cases x with
  | nan => cases h
  | inf a => cases y with
    | nan => cases h
    | inf b => cases h
    | num b => simp only [mul] at h; split_ifs at h
  | num a => cases y with
    | nan => cases h
    | inf b => simp only [mul] at h; split_ifs at h
    | num b => exact ⟨a, b, rfl, rfl, h⟩

theorem div_num (h : div fl x y = num z) :
    (∃ a b, x = num a ∧ y = num b ∧ b ≠ 0 ∧ fl (a / b) = num z) ∨ ∃ a s, x = num a ∧ y = inf s ∧ z = 0 := by
  cases x with
  | nan => cases h
  | inf a => cases y with
    | nan => cases h
    | inf b => cases h
    | num b => cases h
  | num a => cases y with
    | nan => cases h
    | inf b => simp only [div] at h; cases h; exact Or.inr ⟨a, b, rfl, rfl, rfl⟩
    | num b =>
      simp only [div] at h
      split_ifs at h with h0
      exact Or.inl ⟨a, b, rfl, rfl, h0, h⟩

theorem div_num_num {b : K} (h : div fl x (num b) = num z) : ∃ a, x = num a ∧ b ≠ 0 ∧ fl (a / b) = num z := by
  rcases div_num h with ⟨a, c, h1, h2, h3, h4⟩ | ⟨a, s, -, h2, -⟩
  · cases h2; exact ⟨a, h1, h3, h4⟩
  · cases h2

theorem numbers_of {a : K} (h : fl a = num z) : numbers fl a = z := by unfold numbers; rw [h]; rfl

theorem sizeOf_ok {i : ℤ} {n : Nat} (h : sizeOf i = .ok n) : 0 ≤ i ∧ i < 2 ^ 64 ∧ n = i.toNat := by
  unfold sizeOf at h
  split_ifs at h with h1 h2
  cases h
  exact ⟨not_lt.mp h1, not_le.mp h2, rfl⟩

variable [FloorRing K]

theorem roundSize_ok {n : Nat} (h : Dbl.roundSize x = .ok n) : ∃ a, x = num a ∧ Uni.roundSize a = .ok n ∧ n < 2 ^ 64 := by
  cases x with
  | nan => cases h
  | inf a => cases h
  | num a =>
    obtain ⟨h1, h2, h3⟩ := sizeOf_ok (show sizeOf (stdRound a) = .ok n from h)
    refine ⟨a, rfl, ?_, ?_⟩
    · unfold Uni.roundSize
      rw [if_pos h1, h3]
    · omega

theorem ceilSize_ok {n : Nat} (h : Dbl.ceilSize x = .ok n) : ∃ a, x = num a ∧ 0 ≤ ⌈a⌉ := by
  cases x with
  | nan => cases h
  | inf a => cases h
  | num a => exact ⟨a, rfl, (sizeOf_ok (show sizeOf ⌈a⌉ = .ok n from h)).1⟩

end Dbl

namespace Special
open Dbl
variable {K : Type} [Field K] [LinearOrder K] {fl : K → Dbl K}

/-- Settings that agree where they are numbers. -/
structure CfgSim (c : GenSettings (Dbl K)) (c' : GenSettings K) : Prop where
  sw : ∀ x, c.switchPercentage = num x → c'.switchPercentage = x
  en : ∀ x, c.endSwitch = num x → c'.endSwitch = x
  ns : ∀ x, c.nominalSwitchTime = num x → c'.nominalSwitchTime = x
  nom : ∀ x, c.nominalStepTime = num x → c'.nominalStepTime = x
  mb : ∀ x, c.mergeBegin = num x → c'.mergeBegin = x
  me : ∀ x, c.mergeEnd = num x → c'.mergeEnd = x
  pause : ∀ x, (c.pauseActive = true ∧ lt c.maxStepTime (num x) = true) ↔ (c'.pauseActive = true ∧ c'.maxStepTime < x)

/-- What the proofs need of the rounding: a number in `[0, 1]` does not overflow, and the result is again in `[0, 1]`. -/
def UnitNum (fl : K → Dbl K) : Prop := ∀ x : K, 0 ≤ x → x ≤ 1 → ∃ y, fl x = num y ∧ 0 ≤ y ∧ y ≤ 1

/-- The share of the double support is in `[0, 1]` if it is a number. -/
def UnitShare (c : GenSettings (Dbl K)) : Prop :=
  lt c.switchPercentage (num 0) = false ∧ lt (num 1) c.switchPercentage = false

variable [IsStrictOrderedRing K]

theorem switchTime_num {c : GenSettings (Dbl K)} {c' : GenSettings K} (hfl : UnitNum fl) (hu : UnitShare c) (hc : CfgSim c c')
    {half : Bool} {x w : K} (hns : ∀ y, c.nominalSwitchTime = num y → c.switchPercentage.IsNum)
    (h : switchTime fl c half (num x) = num w) :
    Rounded.switchTime (numbers fl) c' half x = w ∧ c.switchPercentage.IsNum := by
  unfold switchTime at h
  unfold Rounded.switchTime
  cases half with
  | true =>
    simp only [if_true] at h ⊢
    obtain ⟨m, hm, -, e1⟩ := div_num_num h
    obtain ⟨q, x', hq, hx, e2⟩ := mul_num hm
    cases hx
    rcases div_num hq with ⟨a, b, ha, hb, -, e3⟩ | ⟨a, s, ha, hb, -⟩
    · obtain ⟨one, d, h1, hd, e4⟩ := sub_num hb
      cases h1
      obtain ⟨a', ha', -, e5⟩ := div_num_num hd
      rw [ha] at ha'
      cases ha'
      rw [hc.sw a ha, numbers_of e5, numbers_of e4, numbers_of e3, numbers_of e2, numbers_of e1, ha]
      exact ⟨rfl, trivial⟩
    · exfalso
      obtain ⟨u1, u2⟩ := hu
      rw [ha] at u1 u2 hb
      simp only [lt, decide_eq_false_iff_not, not_lt] at u1 u2
      obtain ⟨y, e1, e2, e3⟩ := hfl (a / 2) (by linarith) (by linarith)
      obtain ⟨z, e4, -, -⟩ := hfl (1 - y) (by linarith) (by linarith)
      simp only [div, sub, if_neg (two_ne_zero : (2 : K) ≠ 0), e1, e4] at hb
      cases hb
  | false =>
    simp only [Bool.false_eq_true, if_false] at h ⊢
    by_cases hp : c.pauseActive = true ∧ lt c.maxStepTime (num x) = true
    · rw [if_pos hp] at h
      rw [if_pos ((hc.pause x).mp hp)]
      obtain ⟨a, b, h1, h2, h3⟩ := sub_num h
      cases h1
      obtain ⟨n, s, h4, h5, h6⟩ := sub_num h2
      rw [hc.nom n h4, hc.ns s h5, numbers_of h6, numbers_of h3]
      exact ⟨rfl, hns s h5⟩
    · rw [if_neg hp] at h
      rw [if_neg (fun hh => hp ((hc.pause x).mpr hh))]
      obtain ⟨a, b, h1, h2, h3⟩ := mul_num h
      cases h2
      rw [hc.sw a h1, numbers_of h3, h1]
      exact ⟨rfl, trivial⟩

variable [FloorRing K]

theorem stepMerges_num {c : GenSettings (Dbl K)} {c' : GenSettings K} (hc : CfgSim c c') {d w : K} {first : Bool} {back : Nat}
    {m : List Nat} (h : stepMerges fl c (num d) first (num w) back = .ok m) :
    Rounded.stepMerges (numbers fl) c' d first w back = .ok m ∧ (first = false → c.mergeBegin.IsNum ∧ c.mergeEnd.IsNum) := by
  unfold stepMerges at h
  unfold Rounded.stepMerges
  cases first with
  | true => exact ⟨h, fun h => by cases h⟩
  | false =>
    simp only [Bool.false_eq_true, if_false] at h ⊢
    rw [Out.bind_eq_ok] at h
    obtain ⟨a, ha, h⟩ := h
    rw [Out.bind_eq_ok] at h
    obtain ⟨i, hi, h⟩ := h
    rw [Out.bind_eq_ok] at h
    obtain ⟨b, hb, h⟩ := h
    have key : ∀ (g : Dbl K) (n : Nat), Dbl.roundSize (div fl (mul fl (num w) (sub fl (num 1) g)) (num d)) = .ok n →
        ∃ y, g = num y ∧ Uni.roundSize (numbers fl (numbers fl (w * numbers fl (1 - y)) / d)) = .ok n := by
      intro g n hn
      obtain ⟨x, e1, e2, -⟩ := roundSize_ok hn
      obtain ⟨m, e3, -, e4⟩ := div_num_num e1
      obtain ⟨w', v, e5, e6, e7⟩ := mul_num e3
      cases e5
      obtain ⟨o, y, e8, e9, e10⟩ := sub_num e6
      cases e8
      exact ⟨y, e9, by rw [numbers_of e10, numbers_of e7, numbers_of e4]; exact e2⟩
    obtain ⟨ya, hya, ea⟩ := key _ _ ha
    obtain ⟨yb, hyb, eb⟩ := key _ _ hb
    rw [hc.mb _ hya, hc.me _ hyb, ea, Out.bind_ok, hi, Out.bind_ok, eb, Out.bind_ok, hya, hyb]
    exact ⟨h, fun _ => ⟨trivial, trivial⟩⟩

/-- The same timings, as far as they are numbers. -/
structure TimSim (s : Timing (Dbl K)) (s' : Timing K) : Prop where
  left : s'.left = s.left
  right : s'.right = s.right
  shifts : s'.shifts = s.shifts
  merges : s'.merges = s.merges
  li : s'.leftIndex = s.leftIndex
  ri : s'.rightIndex = s.rightIndex
  sl : s'.swingLeft = s.swingLeft
  pe : s'.pastEnd = s.pastEnd
  prev : ∀ x, s.prevTime = num x → s'.prevTime = x

theorem addStep_num {c : GenSettings (Dbl K)} {c' : GenSettings K} (hfl : UnitNum fl) (hu : UnitShare c) (hc : CfgSim c c')
    (hns : ∀ y, c.nominalSwitchTime = num y → c.switchPercentage.IsNum) {d : K} {nl nr : Nat} {first half : Bool}
    {q : Ptr (Dbl K)} {s s1 : Timing (Dbl K)} {s' : Timing K} (hs : TimSim s s')
    (h : addStep fl c (num d) nl nr first half q s = .ok s1) :
    ∃ s1', Rounded.addStep (numbers fl) c' d nl nr first half (ptrNumbers q) s' = .ok s1' ∧ TimSim s1 s1' ∧
      q.step.impactTime.IsNum ∧ s.prevTime.IsNum ∧ c.switchPercentage.IsNum ∧
      (first = false → c.mergeBegin.IsNum ∧ c.mergeEnd.IsNum) := by
  unfold addStep at h
  simp only at h
  split_ifs at h with hneg
  rw [Out.bind_eq_ok] at h
  obtain ⟨n1, h1, h⟩ := h
  rw [Out.bind_eq_ok] at h
  obtain ⟨n2, h2, h⟩ := h
  rw [Out.bind_eq_ok] at h
  obtain ⟨n3, h3, h⟩ := h
  rw [Out.bind_eq_ok] at h
  obtain ⟨sl, h4, h⟩ := h
  rw [Out.bind_eq_ok] at h
  obtain ⟨m, h5, h⟩ := h
  cases h
  obtain ⟨a1, e1, r1, -⟩ := roundSize_ok h1
  obtain ⟨st, e2, -, e3⟩ := div_num_num e1
  obtain ⟨im, pr, e4, e5, e6⟩ := sub_num e2
  obtain ⟨a2, e7, r2, -⟩ := roundSize_ok h2
  obtain ⟨sw, e8, -, e9⟩ := div_num_num e7
  rw [e2] at e8 hneg
  obtain ⟨w1, w2⟩ := switchTime_num hfl hu hc hns e8
  rw [e2, e8] at h5
  obtain ⟨m1, m2⟩ := stepMerges_num hc h5
  have et : numbers fl ((ptrNumbers q).step.impactTime - s'.prevTime) = st := by
    rw [hs.prev pr e5]
    show numbers fl (q.step.impactTime.val - pr) = st
    rw [e4]
    exact numbers_of e6
  have hw : Gen.whichSwings (ptrNumbers q) s'.leftIndex s'.rightIndex = .ok sl := by
    rw [hs.li, hs.ri]; exact h4
  refine ⟨?w, ?a, ?b, by rw [e4]; trivial, by rw [e5]; trivial, w2, m2⟩
  case a =>
    unfold Rounded.addStep
    simp only
    rw [et, if_neg (by simpa [lt] using hneg), numbers_of e3, r1, Out.bind_ok, w1, numbers_of e9, r2, Out.bind_ok, h3, Out.bind_ok, hw,
      Out.bind_ok, hs.shifts, m1, Out.bind_ok]
  case b =>
    exact {
      left := by simp only [hs.left]
      right := by simp only [hs.right]
      shifts := by simp only [hs.shifts]
      merges := by simp only [hs.merges]
      li := by simp only [hs.li]
      ri := by simp only [hs.ri]
      sl := rfl
      pe := by simp only [hs.pe, hs.li, hs.ri]; rfl
      prev := by
        intro x hx
        obtain ⟨p', y, g1, g2, g3⟩ := add_num hx
        obtain ⟨k, d', g4, g5, g6⟩ := mul_num g2
        cases g5
        rw [e5] at g1
        cases g1
        simp only
        rw [hs.prev pr e5, numbers_of g4, numbers_of g6, numbers_of g3] }

theorem addSteps_num {c : GenSettings (Dbl K)} {c' : GenSettings K} (hfl : UnitNum fl) (hu : UnitShare c) (hc : CfgSim c c')
    (hns : ∀ y, c.nominalSwitchTime = num y → c.switchPercentage.IsNum) {d : K} {nl nr : Nat} {half : Bool} :
    ∀ (l : List (Ptr (Dbl K))) (first : Bool) (s s1 : Timing (Dbl K)) (s' : Timing K), TimSim s s' →
      addSteps fl c (num d) nl nr first half l s = .ok s1 →
      (∃ s1', Rounded.addSteps (numbers fl) c' d nl nr first half (l.map ptrNumbers) s' = .ok s1' ∧ TimSim s1 s1') ∧
      (∀ q ∈ l, q.step.impactTime.IsNum) ∧ (l ≠ [] → c.switchPercentage.IsNum) ∧
      ((if first then 1 else 0) < l.length → c.mergeBegin.IsNum ∧ c.mergeEnd.IsNum)
  | [], first, s, s1, s', hs, h => by
    cases h
    exact ⟨⟨s', rfl, hs⟩, fun q hq => by simp at hq, fun h => absurd rfl h, fun h => by simp at h⟩
  | q :: l, first, s, s1, s', hs, h => by
    unfold addSteps at h
    rw [Out.bind_eq_ok] at h
    obtain ⟨s2, h1, h2⟩ := h
    obtain ⟨s2', e1, e2, e3, -, e4, e5⟩ := addStep_num hfl hu hc hns hs h1
    obtain ⟨⟨s1', f1, f2⟩, f3, f4, f5⟩ := addSteps_num hfl hu hc hns l false s2 s1 s2' e2 h2
    refine ⟨⟨s1', ?_, f2⟩, ?_, fun _ => e4, ?_⟩
    · rw [List.map_cons]
      unfold Rounded.addSteps
      rw [e1, Out.bind_ok]
      exact f1
    · intro p hp
      rcases List.mem_cons.mp hp with rfl | hp
      · exact e3
      · exact f3 p hp
    · cases first with
      | false => exact fun _ => e5 rfl
      | true => intro hl; exact f5 (by simp at hl ⊢; exact hl)

theorem addLast_num {c : GenSettings (Dbl K)} {c' : GenSettings K} (hc : CfgSim c c') {d : K} {s s1 : Timing (Dbl K)}
    {s' : Timing K} (hs : TimSim s s') (h : addLast fl c (num d) s = .ok s1) :
    (∃ s1', Rounded.addLast (numbers fl) c' d s' = .ok s1' ∧ TimSim s1 s1') ∧ c.endSwitch.IsNum := by
  unfold addLast at h
  rw [Out.bind_eq_ok] at h
  obtain ⟨n, h1, h⟩ := h
  rw [Out.bind_eq_ok] at h
  obtain ⟨m, h2, h⟩ := h
  cases h
  obtain ⟨a, e1, r, -⟩ := roundSize_ok h1
  obtain ⟨e, e2, -, e3⟩ := div_num_num e1
  refine ⟨⟨?w, ?a, ?b⟩, by rw [e2]; trivial⟩
  case a =>
    unfold Rounded.addLast
    rw [hc.en e e2, numbers_of e3, r, Out.bind_ok, hs.shifts]
    simp only
    rw [h2, Out.bind_ok]
  case b =>
    exact {
      left := by simp only [hs.left, hs.sl]
      right := by simp only [hs.right, hs.sl]
      shifts := by simp only [hs.shifts]
      merges := by simp only [hs.merges]
      li := hs.li
      ri := hs.ri
      sl := hs.sl
      pe := hs.pe
      prev := hs.prev }

/-! ## An infinite sampling period -/

theorem roundSize_div_inf {x : Dbl K} {b : Bool} {n : Nat} (h : Dbl.roundSize (div fl x (inf b)) = .ok n) : n = 0 := by
  cases x with
  | nan => cases h
  | inf a => cases h
  | num a =>
    obtain ⟨h1, h2, h3⟩ := sizeOf_ok (show Dbl.sizeOf (stdRound (0 : K)) = .ok n from h)
    rw [h3]
    have : stdRound (0 : K) = 0 := by
      unfold stdRound
      rw [if_pos le_rfl, zero_add, Int.floor_eq_zero_iff]
      constructor <;> norm_num
    rw [this]; rfl

theorem addSteps_inf {c : GenSettings (Dbl K)} {b : Bool} {nl nr : Nat} {half : Bool} :
    ∀ (l : List (Ptr (Dbl K))) (first : Bool) (s s1 : Timing (Dbl K)), s.shifts.getLastD 0 = 0 →
      addSteps fl c (inf b) nl nr first half l s = .ok s1 → s1.shifts.getLastD 0 = 0
  | [], first, s, s1, hs, h => by cases h; exact hs
  | q :: l, first, s, s1, hs, h => by
    unfold addSteps at h
    rw [Out.bind_eq_ok] at h
    obtain ⟨s2, h1, h2⟩ := h
    refine addSteps_inf l false s2 s1 ?_ h2
    unfold addStep at h1
    simp only at h1
    split_ifs at h1 with hneg
    rw [Out.bind_eq_ok] at h1
    obtain ⟨n1, g1, h1⟩ := h1
    rw [Out.bind_eq_ok] at h1
    obtain ⟨n2, g2, h1⟩ := h1
    rw [Out.bind_eq_ok] at h1
    obtain ⟨n3, g3, h1⟩ := h1
    rw [Out.bind_eq_ok] at h1
    obtain ⟨sl, g4, h1⟩ := h1
    rw [Out.bind_eq_ok] at h1
    obtain ⟨m, g5, h1⟩ := h1
    cases h1
    have z1 := roundSize_div_inf g1
    have z2 := roundSize_div_inf g2
    subst z1 z2
    have z3 : n3 = 0 := by
      unfold subSize at g3
      simp at g3
      exact g3.symm
    rw [List.getLastD_eq_getLast?] at hs ⊢
    simp [z3, hs]

theorem addLast_inf {c : GenSettings (Dbl K)} {b : Bool} {s s1 : Timing (Dbl K)} (hs : s.shifts.getLastD 0 = 0) :
    addLast fl c (inf b) s ≠ .ok s1 := by
  intro h
  unfold addLast at h
  rw [Out.bind_eq_ok] at h
  obtain ⟨n, h1, h⟩ := h
  have := roundSize_div_inf h1
  subst this
  rw [hs] at h
  cases h

/-! ## All together -/

theorem le_zero_false {x : Dbl K} (h : ¬ le x (num 0) = true) : x = nan ∨ x = inf false ∨ ∃ d, x = num d ∧ 0 < d := by
  cases x with
  | nan => exact Or.inl rfl
  | inf b =>
    cases b with
    | true => exact absurd rfl h
    | false => exact Or.inr (Or.inl rfl)
  | num d => exact Or.inr (Or.inr ⟨d, rfl, by simpa [le] using h⟩)

theorem eq_num {x y : Dbl K} (hx : x.IsNum) (hy : y.IsNum) : eq x y = decide (x.val = y.val) := by
  cases x with
  | nan => exact hx.elim
  | inf _ => exact hx.elim
  | num a => cases y with
    | nan => exact hy.elim
    | inf _ => exact hy.elim
    | num b => rfl

/-- What is a number after the phases have been generated for a walk. -/
structure Finite (c : GenSettings (Dbl K)) (initTime dT : Dbl K) (ordered : List (Ptr (Dbl K))) : Prop where
  period : ∃ d, dT = num d ∧ 0 < d
  start : initTime.IsNum
  share : c.switchPercentage.IsNum
  last : c.endSwitch.IsNum
  steps : ∀ q ∈ ordered.drop 2, q.step.impactTime.IsNum
  merge : 3 < ordered.length → c.mergeBegin.IsNum ∧ c.mergeEnd.IsNum

theorem create_num {c : GenSettings (Dbl K)} {c' : GenSettings K} (hfl : UnitNum fl) (hu : UnitShare c) (hc : CfgSim c c')
    (hns : ∀ y, c.nominalSwitchTime = num y → c.switchPercentage.IsNum) {initTime dT : Dbl K} {l r : Step (Dbl K)}
    {ls rs : List (Step (Dbl K))} {ordered : List (Ptr (Dbl K))} {t : Timing (Dbl K)}
    (hd : ¬ le dT (num 0) = true) (hlen : 2 < ordered.length)
    (h : createPhasesTimings fl c initTime dT (l :: ls) (r :: rs) ordered = .ok t) :
    Finite c initTime dT ordered ∧
    (l.impactTime.IsNum → r.impactTime.IsNum → ∃ t', Rounded.createPhasesTimings (numbers fl) c' initTime.val dT.val
      ((l :: ls).map stepNumbers) ((r :: rs).map stepNumbers) (ordered.map ptrNumbers) = .ok t' ∧ TimSim t t') := by
  obtain ⟨last, hlast⟩ : ∃ x, ordered.getLast? = some x := by
    cases h0 : ordered.getLast? with
    | none => rw [List.getLast?_eq_none_iff.mp h0] at hlen; simp at hlen
    | some x => exact ⟨x, rfl⟩
  simp only [createPhasesTimings, hlast] at h
  rw [if_neg (by omega), Out.bind_eq_ok] at h
  obtain ⟨n, h1, h⟩ := h
  rw [Out.bind_eq_ok] at h
  obtain ⟨s, h2, h3⟩ := h
  obtain ⟨a, e1, e2⟩ := ceilSize_ok h1
  obtain ⟨i, hi⟩ : ∃ i, initTime = num i := by
    rcases div_num e1 with ⟨x, _, hx, -⟩ | ⟨x, _, hx, -⟩
    all_goals
      obtain ⟨y, _, hy, -⟩ := add_num hx
      obtain ⟨_, i, -, hi, -⟩ := sub_num hy
      exact ⟨i, hi⟩
  rcases le_zero_false hd with rfl | rfl | ⟨d, rfl, hd0⟩
  · exfalso
    rcases div_num e1 with ⟨_, _, -, hx, -⟩ | ⟨_, _, -, hx, -⟩ <;> cases hx
  · exact absurd h3 (addLast_inf (addSteps_inf _ _ _ _ rfl h2))
  · subst hi
    have hs0 : TimSim (⟨[], [], [0], [0], 1, 1, num i, false, false⟩ : Timing (Dbl K)) ⟨[], [], [0], [0], 1, 1, i, false, false⟩ :=
      ⟨rfl, rfl, rfl, rfl, rfl, rfl, rfl, rfl, fun x hx => by cases hx; rfl⟩
    obtain ⟨⟨s', f1, f2⟩, f3, f4, f5⟩ := addSteps_num hfl hu hc hns _ _ _ _ _ hs0 h2
    obtain ⟨⟨t', g1, g2⟩, g3⟩ := addLast_num hc f2 h3
    refine ⟨⟨⟨d, rfl, hd0⟩, trivial, f4 ?_, g3, f3, fun hl => f5 ?_⟩, fun hl hr => ⟨t', ?_, g2⟩⟩
    · intro h0
      have := congrArg List.length h0
      simp at this
      omega
    · simp; omega
    · obtain ⟨x, hx, -, ex⟩ := div_num_num e1
      obtain ⟨y, z, hy, hz, ey⟩ := add_num hx
      obtain ⟨w, i', hw, hi', ew⟩ := sub_num hy
      cases hi'
      have hlast' : (ordered.map ptrNumbers).getLast? = some (ptrNumbers last) := by rw [List.getLast?_map, hlast]; rfl
      simp only [Rounded.createPhasesTimings, List.map_cons, hlast', List.length_map]
      rw [if_neg (by omega)]
      have ev : (ptrNumbers last).step.impactTime = w := by show last.step.impactTime.val = w; rw [hw]; rfl
      rw [ev, hc.en z hz]
      have eq1 : numbers fl (numbers fl (numbers fl (w - (num i : Dbl K).val) + z) / (num d : Dbl K).val) = a := by
        show numbers fl (numbers fl (numbers fl (w - i) + z) / d) = a
        rw [numbers_of ew, numbers_of ey, numbers_of ex]
      rw [eq1, if_neg (by omega)]
      have hh : decide ((stepNumbers l).impactTime ≠ (stepNumbers r).impactTime) = !eq l.impactTime r.impactTime := by
        rw [eq_num hl hr]
        exact decide_not
      rw [hh]
      rw [← List.map_drop]
      simp only [List.length_cons, List.length_map] at f1 ⊢
      show (Rounded.addSteps (numbers fl) c' d (ls.length + 1) (rs.length + 1) true (!eq l.impactTime r.impactTime)
        (List.map ptrNumbers (List.drop 2 ordered)) ⟨[], [], [0], [0], 1, 1, i, false, false⟩ >>= fun s => _) = _
      rw [f1, Out.bind_ok]
      exact g1

theorem orderSteps_shape {sorted ordered : List (Ptr (Dbl K))} (h : orderSteps sorted = .ok ordered) :
    ordered.Perm sorted ∧ ordered.getLast? = sorted.getLast? ∨ ordered.length ≤ 2 := by
  unfold orderSteps at h
  split_ifs at h
  match sorted, h with
  | [], h => cases h; right; simp
  | [a], h => cases h
  | [a, b], h => simp [adjacentDup] at h; cases h; right; simp
  | a :: b :: c :: rest, h =>
    left
    simp only at h
    split_ifs at h
    · cases h; exact ⟨List.Perm.swap _ _ _, by simp⟩
    · cases h; exact ⟨List.Perm.refl _, rfl⟩

theorem all_num {sorted : List (Ptr (Dbl K))} (hs : sorted.Pairwise (fun p q => lt q.step.impactTime p.step.impactTime = false))
    (h0 : ∀ p ∈ sorted, p.step.impactTime ≠ nan ∧ p.step.impactTime ≠ inf true) {last : Ptr (Dbl K)}
    (hl : sorted.getLast? = some last) (hn : last.step.impactTime.IsNum) : ∀ p ∈ sorted, p.step.impactTime.IsNum := by
  intro p hp
  obtain ⟨i, hi, rfl⟩ := List.getElem_of_mem hp
  have hlast : sorted[sorted.length - 1]? = some last := by rw [← List.getLast?_eq_getElem?]; exact hl
  obtain ⟨hj, hje⟩ := List.getElem?_eq_some_iff.mp hlast
  by_cases hij : i = sorted.length - 1
  · subst hij; rw [hje]; exact hn
  · have h1 := List.pairwise_iff_getElem.mp hs i (sorted.length - 1) hi hj (by omega)
    rw [hje] at h1
    obtain ⟨h2, h3⟩ := h0 _ hp
    cases hx : last.step.impactTime with
    | nan => rw [hx] at hn; exact hn.elim
    | inf b => rw [hx] at hn; exact hn.elim
    | num x =>
      rw [hx] at h1
      cases hy : sorted[i].step.impactTime with
      | num y => trivial
      | nan => exact absurd hy h2
      | inf b =>
        rw [hy] at h1 h3
        cases b with
        | true => exact absurd rfl h3
        | false => cases h1

theorem adjacentDup_num : ∀ (l : List (Ptr (Dbl K))), (∀ p ∈ l, p.step.impactTime.IsNum) →
    Gen.adjacentDup (l.map ptrNumbers) = adjacentDup l
  | [], _ => rfl
  | [a], _ => rfl
  | a :: b :: l, h => by
    have ih := adjacentDup_num (b :: l) (fun p hp => h p (List.mem_cons_of_mem _ hp))
    simp only [List.map_cons] at ih ⊢
    unfold Gen.adjacentDup adjacentDup
    rw [ih, eq_num (h a (by simp)) (h b (by simp))]
    rfl

theorem orderSteps_num {sorted ordered : List (Ptr (Dbl K))} (hn : ∀ p ∈ sorted, p.step.impactTime.IsNum)
    (h : orderSteps sorted = .ok ordered) : Gen.orderSteps (sorted.map ptrNumbers) = .ok (ordered.map ptrNumbers) := by
  unfold orderSteps at h
  split_ifs at h
  match sorted, h, hn with
  | [], h, _ => cases h; rfl
  | [a], h, _ => cases h
  | [a, b], h, _ => simp [adjacentDup] at h; cases h; rfl
  | a :: b :: c :: rest, h, hn =>
    simp only at h
    have h1 := adjacentDup_num (c :: rest) (fun p hp => hn p (by simp at hp ⊢; tauto))
    simp only [List.map_cons] at h1 ⊢
    unfold Gen.orderSteps
    simp only
    rw [h1]
    rw [eq_num (hn a (by simp)) (hn b (by simp))] at h
    split_ifs at h with g1 g2
    · cases h
      rw [if_neg (by simpa using g1)]
      rw [if_pos ⟨of_decide_eq_true g2.1, g2.2⟩]
      rfl
    · cases h
      rw [if_neg (by simpa using g1)]
      rw [if_neg (fun hh => g2 ⟨decide_eq_true hh.1, hh.2⟩)]
      rfl

theorem ofFeet_num (left right : FootPrint (Dbl K)) :
    Ptr.ofFeet (footNumbers left) (footNumbers right) = (Ptr.ofFeet left right).map ptrNumbers := by
  have key : ∀ (b : Bool) (l : List (Step (Dbl K))), Ptr.ofFoot b (l.map stepNumbers) = (Ptr.ofFoot b l).map ptrNumbers := by
    intro b l
    unfold Ptr.ofFoot
    rw [List.zipIdx_map, List.map_map, List.map_map]
    rfl
  unfold Ptr.ofFeet
  rw [List.map_append, ← key, ← key]
  rfl

theorem cfgSim {c : GenSettings (Dbl K)} (hm : c.maxStepTime ≠ inf true) :
    CfgSim { c with nominalSwitchTime := mul fl c.switchPercentage c.nominalStepTime }
      { cfgNumbers c with
        nominalSwitchTime := numbers fl ((cfgNumbers c).switchPercentage * (cfgNumbers c).nominalStepTime) } where
  sw := fun x hx => by simp only at hx; simp [cfgNumbers, hx, val]
  en := fun x hx => by simp only at hx; simp [cfgNumbers, hx, val]
  ns := fun x hx => by
    obtain ⟨a, b, h1, h2, h3⟩ := mul_num hx
    simp only [cfgNumbers, h1, h2, val]
    exact numbers_of h3
  nom := fun x hx => by simp only at hx; simp [cfgNumbers, hx, val]
  mb := fun x hx => by simp only at hx; simp [cfgNumbers, hx, val]
  me := fun x hx => by simp only at hx; simp [cfgNumbers, hx, val]
  pause := fun x => by
    simp only [cfgNumbers, Bool.and_eq_true, decide_eq_true_eq]
    cases hx : c.maxStepTime with
    | nan => simp [lt, IsNum]
    | inf b =>
      cases b with
      | true => exact absurd hx hm
      | false => simp [lt, IsNum]
    | num y => simp [lt, IsNum, val]

theorem timeline_split {c : GenSettings (Dbl K)} {left right : FootPrint (Dbl K)} {initTime dT : Dbl K}
    {sorted ordered : List (Ptr (Dbl K))} {t : Timing (Dbl K)}
    (h : timeline fl c left right initTime dT sorted = .ok (ordered, t)) :
    ∃ l ls r rs, left.steps = l :: ls ∧ right.steps = r :: rs ∧ left.footName ≠ right.footName ∧ ¬ le dT (num 0) = true ∧
      lt initTime (max' l.impactTime r.impactTime) = false ∧ orderSteps sorted = .ok ordered ∧
      createPhasesTimings fl { c with nominalSwitchTime := mul fl c.switchPercentage c.nominalStepTime } initTime dT
        (l :: ls) (r :: rs) ordered = .ok t := by
  unfold timeline at h
  cases hl : left.steps with
  | nil => rw [hl] at h; simp at h
  | cons l ls =>
    cases hr : right.steps with
    | nil => rw [hl, hr] at h; simp at h
    | cons r rs =>
      rw [hl, hr] at h
      simp only at h
      split_ifs at h with h1 h2 h3
      rw [Out.bind_eq_ok] at h
      obtain ⟨o, h4, h⟩ := h
      rw [Out.bind_eq_ok] at h
      obtain ⟨t0, h5, h⟩ := h
      cases h
      exact ⟨l, ls, r, rs, rfl, rfl, h1, h2, by simpa using h3, h4, h5⟩

theorem nominal_num {c : GenSettings (Dbl K)} (y : K) (h : mul fl c.switchPercentage c.nominalStepTime = num y) :
    c.switchPercentage.IsNum := by
  obtain ⟨a, _, h1, -⟩ := mul_num h
  rw [h1]; trivial

/-- A walk whose phases are generated is made of numbers. -/
theorem timeline_finite {c : GenSettings (Dbl K)} {left right : FootPrint (Dbl K)} {initTime dT : Dbl K}
    {sorted ordered : List (Ptr (Dbl K))} {t : Timing (Dbl K)} (hfl : UnitNum fl) (hu : UnitShare c) (hm : c.maxStepTime ≠ inf true)
    (hlen : 2 < ordered.length) (h : timeline fl c left right initTime dT sorted = .ok (ordered, t)) :
    Finite c initTime dT ordered := by
  obtain ⟨l, ls, r, rs, -, -, -, hd, -, -, hcr⟩ := timeline_split h
  have hc := cfgSim (fl := fl) hm
  obtain ⟨f, -⟩ := create_num hfl (show UnitShare { c with nominalSwitchTime := mul fl c.switchPercentage c.nominalStepTime } from hu)
    hc nominal_num hd hlen hcr
  exact ⟨f.period, f.start, f.share, f.last, f.steps, f.merge⟩

/-- A walk whose phases are generated is that of the rounded model. -/
theorem timeline_num {c : GenSettings (Dbl K)} {left right : FootPrint (Dbl K)} {initTime dT : Dbl K}
    {sorted ordered : List (Ptr (Dbl K))} {t : Timing (Dbl K)} (hfl : UnitNum fl) (hu : UnitShare c) (hm : c.maxStepTime ≠ inf true)
    (hs : SortedDbl left right sorted)
    (h0 : ∀ s ∈ left.steps ++ right.steps, s.impactTime ≠ nan ∧ s.impactTime ≠ inf true)
    (hlen : 2 < ordered.length) (h : timeline fl c left right initTime dT sorted = .ok (ordered, t)) :
    (∀ s ∈ left.steps ++ right.steps, s.impactTime.IsNum) ∧
    Uni.SortedPtrs (footNumbers left) (footNumbers right) (sorted.map ptrNumbers) ∧
    ∃ t', Rounded.timeline (numbers fl) (cfgNumbers c) (footNumbers left) (footNumbers right) initTime.val dT.val
      (sorted.map ptrNumbers) = .ok (ordered.map ptrNumbers, t') ∧ TimSim t t' := by
  obtain ⟨l, ls, r, rs, hl, hr, hname, hd, hi, ho, hcr⟩ := timeline_split h
  have hc := cfgSim (fl := fl) hm
  obtain ⟨f, hrun⟩ := create_num hfl (show UnitShare { c with nominalSwitchTime := mul fl c.switchPercentage c.nominalStepTime } from hu)
    hc nominal_num hd hlen hcr
  have hmem : ∀ p ∈ sorted, p.step ∈ left.steps ++ right.steps := by
    intro p hp
    have := hs.1.mem_iff.mp hp
    unfold Ptr.ofFeet Ptr.ofFoot at this
    rw [List.mem_append, List.mem_map, List.mem_map] at this
    rcases this with ⟨a, ha, rfl⟩ | ⟨a, ha, rfl⟩
    · exact List.mem_append_left _ (List.fst_mem_of_mem_zipIdx ha)
    · exact List.mem_append_right _ (List.fst_mem_of_mem_zipIdx ha)
  have hmem' : ∀ s ∈ left.steps ++ right.steps, ∃ p ∈ sorted, p.step = s := by
    intro s hsm
    rw [List.mem_append] at hsm
    rcases hsm with hsm | hsm
    · obtain ⟨i, hi, rfl⟩ := List.getElem_of_mem hsm
      exact ⟨⟨true, i, left.steps[i]⟩, hs.1.mem_iff.mpr (List.mem_append_left _ (List.mem_map.mpr
        ⟨(left.steps[i], i), by simp [List.mem_zipIdx_iff_getElem?], rfl⟩)), rfl⟩
    · obtain ⟨i, hi, rfl⟩ := List.getElem_of_mem hsm
      exact ⟨⟨false, i, right.steps[i]⟩, hs.1.mem_iff.mpr (List.mem_append_right _ (List.mem_map.mpr
        ⟨(right.steps[i], i), by simp [List.mem_zipIdx_iff_getElem?], rfl⟩)), rfl⟩
  have hnum : ∀ p ∈ sorted, p.step.impactTime.IsNum := by
    rcases orderSteps_shape ho with ⟨-, h2⟩ | h2
    · obtain ⟨last, hlast⟩ : ∃ x, ordered.getLast? = some x := by
        cases h0 : ordered.getLast? with
        | none => rw [List.getLast?_eq_none_iff.mp h0] at hlen; simp at hlen
        | some x => exact ⟨x, rfl⟩
      refine all_num hs.2 (fun p hp => h0 _ (hmem p hp)) (last := last) (by rw [← h2]; exact hlast) (f.steps _ ?_)
      have : (ordered.drop 2).getLast? = some last := by rw [List.getLast?_drop, if_neg (by omega)]; exact hlast
      exact List.mem_of_getLast? this
    · omega
  have hall : ∀ s ∈ left.steps ++ right.steps, s.impactTime.IsNum := by
    intro s hsm
    obtain ⟨p, hp, rfl⟩ := hmem' s hsm
    exact hnum p hp
  have hln : l.impactTime.IsNum := hall l (by rw [hl]; simp)
  have hrn : r.impactTime.IsNum := hall r (by rw [hr]; simp)
  refine ⟨hall, ⟨?_, ?_⟩, ?_⟩
  · rw [ofFeet_num]; exact hs.1.map _
  · rw [List.pairwise_map]
    refine hs.2.imp_of_mem ?_
    intro p q hp hq hpq
    show p.step.impactTime.val ≤ q.step.impactTime.val
    have e1 := hnum p hp
    have e2 := hnum q hq
    revert hpq e1 e2
    cases p.step.impactTime <;> cases q.step.impactTime <;> simp [lt, IsNum, val]
  · obtain ⟨t', e1, e2⟩ := hrun hln hrn
    refine ⟨t', ?_, e2⟩
    obtain ⟨d, rfl, hd0⟩ := f.period
    have hi' := f.start
    unfold Rounded.timeline
    simp only [footNumbers, hl, hr, List.map_cons]
    rw [if_neg hname, if_neg (by simpa [val] using hd0), if_neg ?_, orderSteps_num hnum ho, Out.bind_ok]
    · simp only [List.map_cons] at e1
      rw [e1, Out.bind_ok]
    · show ¬ initTime.val < max l.impactTime.val r.impactTime.val
      revert hln hrn hi' hi
      cases initTime <;> cases l.impactTime <;> cases r.impactTime <;> simp [lt, IsNum, val, max']
      intro hh
      split_ifs at hh with h1
      · exact ⟨h1.le.trans (by simpa [lt] using hh), by simpa [lt] using hh⟩
      · exact ⟨by simpa [lt] using hh, (not_lt.mp h1).trans (by simpa [lt] using hh)⟩

/-! ## What is not a number is not refused -/

theorem timeline_accepted {c : GenSettings (Dbl K)} {left right : FootPrint (Dbl K)} {initTime dT : Dbl K}
    {sorted : List (Ptr (Dbl K))} (h : AcceptedDbl left right initTime dT) :
    ∃ l ls r rs, left.steps = l :: ls ∧ right.steps = r :: rs ∧ timeline fl c left right initTime dT sorted =
      (orderSteps sorted >>= fun ordered =>
        createPhasesTimings fl { c with nominalSwitchTime := mul fl c.switchPercentage c.nominalStepTime } initTime dT
          (l :: ls) (r :: rs) ordered >>= fun t => .ok (ordered, t)) := by
  obtain ⟨h1, h2, l, ls, r, rs, h3, h4, h5⟩ := h
  refine ⟨l, ls, r, rs, h3, h4, ?_⟩
  unfold timeline
  rw [h3, h4]
  simp only
  rw [if_neg h1, if_neg (by rw [h2]; simp), if_neg (by rw [h5]; simp)]

theorem div_not_num {x y : Dbl K} (h : ¬ x.IsNum ∨ y = nan) : ¬ (div fl x y).IsNum := by
  intro hn
  cases hd : div fl x y with
  | nan => rw [hd] at hn; exact hn
  | inf b => rw [hd] at hn; exact hn
  | num z =>
    rcases div_num hd with ⟨a, b, h1, h2, -⟩ | ⟨a, b, h1, h2, -⟩
    · subst h1 h2; rcases h with h | h
      · exact h trivial
      · cases h
    · subst h1 h2; rcases h with h | h
      · exact h trivial
      · cases h

theorem add_not_num {x y : Dbl K} (h : ¬ x.IsNum ∨ ¬ y.IsNum) : ¬ (add fl x y).IsNum := by
  intro hn
  cases hd : add fl x y with
  | nan => rw [hd] at hn; exact hn
  | inf b => rw [hd] at hn; exact hn
  | num z =>
    obtain ⟨a, b, h1, h2, -⟩ := add_num hd
    subst h1 h2
    rcases h with h | h <;> exact h trivial

theorem sub_not_num {x y : Dbl K} (h : ¬ x.IsNum ∨ ¬ y.IsNum) : ¬ (sub fl x y).IsNum := by
  intro hn
  cases hd : sub fl x y with
  | nan => rw [hd] at hn; exact hn
  | inf b => rw [hd] at hn; exact hn
  | num z =>
    obtain ⟨a, b, h1, h2, -⟩ := sub_num hd
    subst h1 h2
    rcases h with h | h <;> exact h trivial

theorem roundSize_not_num {x : Dbl K} (h : ¬ x.IsNum) : Dbl.roundSize x = .ub .notRepresentable := by
  cases x with
  | nan => rfl
  | inf _ => rfl
  | num _ => exact absurd trivial h

theorem ceilSize_not_num {x : Dbl K} (h : ¬ x.IsNum) : Dbl.ceilSize x = .ub .notRepresentable := by
  cases x with
  | nan => rfl
  | inf _ => rfl
  | num _ => exact absurd trivial h

theorem create_ub {c : GenSettings (Dbl K)} {initTime dT : Dbl K} {l r : Step (Dbl K)} {ls rs : List (Step (Dbl K))}
    {ordered : List (Ptr (Dbl K))} {last : Ptr (Dbl K)} (hl : ordered.getLast? = some last)
    (h : dT = nan ∨ ¬ c.endSwitch.IsNum ∨ ordered.length ≠ 2 ∧ (¬ initTime.IsNum ∨ ¬ last.step.impactTime.IsNum)) :
    createPhasesTimings fl c initTime dT (l :: ls) (r :: rs) ordered = .ub .notRepresentable := by
  simp only [createPhasesTimings, hl]
  by_cases h2 : ordered.length = 2
  · rw [if_pos h2, roundSize_not_num, Out.bind_ub]
    exact div_not_num (by tauto)
  · rw [if_neg h2, ceilSize_not_num, Out.bind_ub]
    apply div_not_num
    rcases h with h | h | ⟨-, h | h⟩
    · exact Or.inr h
    · exact Or.inl (add_not_num (Or.inr h))
    · exact Or.inl (add_not_num (Or.inl (sub_not_num (Or.inr h))))
    · exact Or.inl (add_not_num (Or.inl (sub_not_num (Or.inl h))))

theorem timeline_ub_num {c : GenSettings (Dbl K)} {left right : FootPrint (Dbl K)} {initTime dT : Dbl K}
    {sorted ordered : List (Ptr (Dbl K))} {last : Ptr (Dbl K)} (ha : AcceptedDbl left right initTime dT)
    (ho : orderSteps sorted = .ok ordered) (hl : ordered.getLast? = some last)
    (h : dT = nan ∨ ¬ c.endSwitch.IsNum ∨ ordered.length ≠ 2 ∧ (¬ initTime.IsNum ∨ ¬ last.step.impactTime.IsNum)) :
    timeline fl c left right initTime dT sorted = .ub .notRepresentable := by
  obtain ⟨l, ls, r, rs, -, -, e⟩ := timeline_accepted (fl := fl) (c := c) (sorted := sorted) ha
  rw [e, ho, Out.bind_ok,
    create_ub (c := { c with nominalSwitchTime := mul fl c.switchPercentage c.nominalStepTime }) hl h, Out.bind_ub]

theorem timeline_ub_sort {c : GenSettings (Dbl K)} {left right : FootPrint (Dbl K)} {initTime dT : Dbl K}
    {sorted : List (Ptr (Dbl K))} (ha : AcceptedDbl left right initTime dT) (h : orderSteps sorted = .ub .notAnOrder) :
    timeline fl c left right initTime dT sorted = .ub .notAnOrder := by
  obtain ⟨l, ls, r, rs, -, -, e⟩ := timeline_accepted (fl := fl) (c := c) (sorted := sorted) ha
  rw [e, h, Out.bind_ub]

/-! ## The setters -/

theorem run_fit (hfl : DblRounding fl) {s : GenSettings (Dbl K)} (hs : FitDbl s)
    (o : GenSettings.Op (Dbl K)) (ho : ArgsDbl fl o) : FitDbl (run fl s o).2 := by
  have hmr : ∀ a b, FitDbl (setMergePointRatios s a b).2 := by
    intro a b
    unfold setMergePointRatios
    split_ifs <;> exact ⟨hs.nonneg, hs.le_one, hs.longest⟩
  cases o with
  | setSwitchOverSwingRatio r =>
    simp only [run]
    by_cases h0 : le r (num 0) = true
    · rw [if_pos h0]; exact hs
    · rw [if_neg h0]
      have key : lt (div fl r (add fl (num 1) r)) (num 0) = false ∧ lt (num 1) (div fl r (add fl (num 1) r)) = false := by
        rcases le_zero_false h0 with rfl | rfl | ⟨d, rfl, hd⟩
        · exact ⟨rfl, rfl⟩
        · exact ⟨rfl, rfl⟩
        · have hd' : fl d = num d := ho
          have hm := hfl.mono d (1 + d) (by linarith)
          have hn := hfl.notNan (1 + d)
          rw [hd'] at hm
          simp only [add]
          cases he : fl (1 + d) with
          | nan => exact absurd he hn
          | inf b => simp [div, lt]
          | num e =>
            rw [he] at hm
            simp only [lt, decide_eq_false_iff_not, not_lt] at hm
            have he0 : 0 < e := hd.trans_le hm
            obtain ⟨y, h1, h2, h3⟩ := hfl.unit (d / e) (div_nonneg hd.le he0.le) ((div_le_one he0).mpr hm)
            simp only [div, if_neg he0.ne', h1, lt]
            simp [h2, h3]
      exact ⟨key.1, key.2, hs.longest⟩
  | setTerminalHalfSwitchTime t =>
    simp only [run]; split_ifs <;> exact ⟨hs.nonneg, hs.le_one, hs.longest⟩
  | setPauseActive b => exact ⟨hs.nonneg, hs.le_one, hs.longest⟩
  | setPauseConditions m n =>
    simp only [run]
    split_ifs with h1 h2 h3
    · exact hs
    · exact hs
    · exact hs
    · refine ⟨hs.nonneg, hs.le_one, ?_⟩
      rintro (rfl : m = _)
      exact h1 rfl
  | setMergePointRatio r => exact hmr r r
  | setMergePointRatios a b => exact hmr a b
  | disablePauseConditions => exact ⟨hs.nonneg, hs.le_one, hs.longest⟩

omit [FloorRing K] in
theorem overflow_rounding {f : K → K} (hf : Rounding f) {M : K} (hM : 1 ≤ M) : DblRounding (overflow f M) where
  unit := by
    intro x h0 h1
    have e0 : 0 ≤ f x := by rw [← hf.zero]; exact hf.mono h0
    have e1 : f x ≤ 1 := by rw [← hf.one]; exact hf.mono h1
    refine ⟨f x, ?_, e0, e1⟩
    unfold overflow
    rw [if_neg (by linarith), if_neg (by linarith)]
  mono := by
    intro x y hxy
    have := hf.mono hxy
    unfold overflow
    split_ifs <;> simp [lt] <;> linarith
  notNan := by
    intro x
    unfold overflow
    split_ifs <;> simp

end Special
end Uni
