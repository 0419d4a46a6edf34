import Verif.Spec.Pace
import Verif.Lemmas.Stride

/-! # Lemmas for `Verif.Props.Pace` -/

set_option autoImplicit false
set_option linter.unusedSectionVars false

namespace Uni.Walker
open Spec Gen
variable {K : Type} [Field K] [LinearOrder K] [IsStrictOrderedRing K] [FloorRing K] [Trig K]
variable {integ : Integrator K} {sort : Sorter K} {w : Walker K} {dT time : K}
variable {legs : List (Leg K)} {R : Vec2 K × K → Vec2 K × K → Prop}

/-- A swing is as long as the phases are. -/
theorem long_swing {w1 : Walker K} {ordered : List (Ptr K)} {t : Timing K} {n : Nat} (hl : LongPhases sort dT n w time)
    (hm : MadeBy w1 w time dT (sort w.left w.right) ordered t) (f : Bool) {a N : Nat} (hsw : IsSwing (if f then t.left else t.right) a N) :
    n ≤ N := by
  obtain ⟨p1, p2, p3, p4, p5⟩ := C34_partition hm.made
  have ha : a < t.left.length := by
    have := (List.getElem?_eq_some_iff.mp (hsw.all 0 hsw.pos)).1
    cases f
    · simp at this; omega
    · simpa using this
  -- the phase that contains the first sample of the swing
  have key : ∀ l : List Nat, l.head? = some 0 → l.getLast? = some t.left.length → ∃ i x y : Nat, l[i]? = some x ∧ l[i + 1]? = some y ∧ x ≤ a ∧ a < y := by
    intro l h0 h1
    have hex : ∃ i : Nat, ∃ x : Nat, l[i]? = some x ∧ a < x := by
      rw [List.getLast?_eq_getElem?] at h1
      exact ⟨_, _, h1, ha⟩
    classical
    obtain ⟨x, hx, hax⟩ := Nat.find_spec hex
    have hne : Nat.find hex ≠ 0 := by
      intro h
      rw [h, ← List.head?_eq_getElem?, h0] at hx
      cases hx; omega
    obtain ⟨k, hk⟩ : ∃ k, Nat.find hex = k + 1 := ⟨Nat.find hex - 1, by omega⟩
    rw [hk] at hx
    have hlt := (List.getElem?_eq_some_iff.mp hx).1
    have hmin := Nat.find_min hex (m := k) (by omega)
    refine ⟨k, l[k]'(by omega), x, List.getElem?_eq_getElem _, hx, ?_, hax⟩
    by_contra hc
    exact hmin ⟨_, List.getElem?_eq_getElem (by omega), by omega⟩
  obtain ⟨i, x, y, hx, hy, hxa, hay⟩ := key _ p3 p2
  obtain ⟨pl, pr, hpp⟩ := p5 i x y hx hy
  have hxy := hl.2 _ _ hm.made i x y hx hy
  have hall : ∀ j, x ≤ j → j < y → (if f then t.left else t.right)[j]? = some .swing := by
    intro j h1 h2
    have e1 := hpp j h1 h2
    have e2 := hpp a hxa hay
    have e3 := hsw.all 0 hsw.pos
    rw [Nat.add_zero] at e3
    cases f
    · simp only [Bool.false_eq_true, if_false] at *
      rw [e2.2] at e3; rw [e1.2, e3]
    · simp only [if_true] at *
      rw [e2.1] at e3; rw [e1.1, e3]
  have hax : x = a := by
    rcases Nat.lt_or_ge x a with hlt | hge
    · rcases hsw.before with h | h
      · omega
      · exact absurd (hall (a - 1) (by omega) (by omega)) h
    · omega
  have : y ≤ a + N := by
    by_contra hc
    exact hsw.after (hall (a + N) (by omega) (by omega))
  omega

/-- The pace of one walk. -/
theorem pace {S : Type} {plugin : Walker K → Option (Plugin S (FeetOut K))} {w1 : Walker K} {ordered : List (Ptr K)} {t : Timing K} {n : Nat}
    {peak steep d b : K} (hpeak : 0 ≤ peak) (hsteep : 0 ≤ steep) (hd : 0 ≤ d) (hb : 0 ≤ b)
    (hsort : ∀ l r, SortedPtrs l r (sort l r)) (hl : LongPhases sort dT n w time)
    (hm : MadeBy w1 w time dT (sort w.left w.right) ordered t)
    (hc : ∀ p out, plugin w = some p → p.result = some out → ∀ (f : Bool) (j : Nat) (ph : Phase),
      (if f then t.left else t.right)[j]? = some ph → ph ≠ .swing →
      ∃ s o, (if f then w.left.steps else w.right.steps)[landings (if f then t.left else t.right) j]? = some s ∧
        (if f then out.1 else out.2)[j]? = some o ∧ AtRestOn s o)
    (hstill : ∀ f, (footOf plugin f w).IsChain NoSlip)
    (hs : ∀ p out, plugin w = some p → p.result = some out → ∀ (f : Bool) (j : Nat),
      (if f then t.left else t.right)[j]? = some .swing → ∃ a N m s s' o, j = a + m ∧ m < N ∧ IsSwing (if f then t.left else t.right) a N ∧
        (if f then w.left.steps else w.right.steps)[landings (if f then t.left else t.right) a]? = some s ∧
        (if f then w.left.steps else w.right.steps)[landings (if f then t.left else t.right) a + 1]? = some s' ∧
        (if f then out.1 else out.2)[j]? = some o ∧ Gentle peak steep (N * dT) s s' o ∧
        ∀ o', (if f then out.1 else out.2)[j + 1]? = some o' → NearNext peak N s s' o o')
    (hP : Paired R w.left.steps w.right.steps) (hR : Spans R d b) (f : Bool) :
    (∀ x ∈ footOf plugin f w, Paced (peak * d / (n * dT)) (steep * d ^ 2 / (n * dT) ^ 4) (peak * b / (n * dT)) x.2) ∧
    (footOf plugin f w).IsChain (Creeps (peak * d / n) (peak * b / n)) := by
  have hpos := shifts_of_long hl hm
  obtain ⟨l0, r0, tt, hrun⟩ := timeline_ok hm.made
  have hdT := hrun.dT_pos
  have hn : (0 : K) < n := by exact_mod_cast hl.1
  have hT : 0 < (n : K) * dT := mul_pos hn hdT
  cases hp : plugin w with
  | none => simp [footOf, hp]
  | some p =>
    cases ho : p.result with
    | none => simp [footOf, hp, ho]
    | some out =>
      have hget : ∀ (j : Nat) (x : Bool × FootSample K), (footOf plugin f w)[j]? = some x →
          (if f then w.outputs.leftContact else w.outputs.rightContact)[j]? = some x.1 ∧ (if f then out.1 else out.2)[j]? = some x.2 := by
        intro j x hx
        simpa only [footOf, hp, ho, Option.bind_some, List.getElem?_zip_eq_some] using hx
      have hphase : ∀ (j : Nat) (x : Bool × FootSample K), (footOf plugin f w)[j]? = some x → ∃ ph, (if f then t.left else t.right)[j]? = some ph ∧
          (x.1 = true ↔ ph ≠ .swing) := by
        intro j x hx
        have h1 := (hget j x hx).1
        rw [hm.outputs] at h1
        have key : ∀ l : List Phase, (contacts l)[j]? = some x.1 → ∃ p, l[j]? = some p ∧ (x.1 = true ↔ p ≠ .swing) := by
          intro l hl
          simp only [contacts, List.getElem?_map, Option.map_eq_some_iff] at hl
          obtain ⟨p, h1, h2⟩ := hl
          exact ⟨p, h1, by rw [← h2]; simp⟩
        cases f
        · exact key _ h1
        · exact key _ h1
      -- the ends of a swing
      have hspan : ∀ a N m s s', m < N → IsSwing (if f then t.left else t.right) a N →
          (if f then w.left.steps else w.right.steps)[landings (if f then t.left else t.right) a]? = some s →
          (if f then w.left.steps else w.right.steps)[landings (if f then t.left else t.right) a + 1]? = some s' →
          gapSq s s' ≤ d ^ 2 ∧ |s'.angle - s.angle| ≤ b := by
        intro a N m s s' hmN hsw h1 h2
        have hlt : a + m < t.left.length := by
          have := (List.getElem?_eq_some_iff.mp (hsw.all m hmN)).1
          have e := (C34_partition hm.made).1
          cases f
          · simp at this; omega
          · simpa using this
        obtain ⟨pa, pb, q1, q2, hcomp⟩ := C35_complementary hm.made (a + m) hlt
        have e := hsw.all m hmN
        cases f with
        | true =>
          simp only [if_true] at e
          rw [q1] at e; cases e
          have hpb : pb ≠ .swing := by rintro rfl; simp [Complementary] at hcomp
          obtain ⟨r, o', f1, -, -⟩ := hc p out hp ho false _ pb q2 hpb
          have := swing_paired hP (hsort _ _) hm.made hpos true a N m hmN hsw h1 h2 f1
          simp only [if_true] at this
          exact hR _ _ _ (Or.inl this)
        | false =>
          simp only [Bool.false_eq_true, if_false] at e
          rw [q2] at e; cases e
          have hpa : pa ≠ .swing := by rintro rfl; simp [Complementary] at hcomp
          obtain ⟨r, o', f1, -, -⟩ := hc p out hp ho true _ pa q1 hpa
          have := swing_paired hP (hsort _ _) hm.made hpos false a N m hmN hsw h1 h2 f1
          simp only [Bool.false_eq_true, if_false] at this
          exact hR _ _ _ (Or.inr this)
      refine ⟨fun x hx => ?_, ?_⟩
      · obtain ⟨j, hj⟩ := List.getElem?_of_mem hx
        obtain ⟨ph, hph, hiff⟩ := hphase j x hj
        have hx2 := (hget j x hj).2
        by_cases hne : ph = .swing
        · subst hne
          obtain ⟨a, N, m, s, s', o, e, hmN, hsw, h1, h2, h3, h4, -⟩ := hs p out hp ho f j hph
          rw [hx2] at h3; cases h3
          obtain ⟨g1, g2⟩ := hspan a N m s s' hmN hsw h1 h2
          have hNn : (n : K) ≤ N := by exact_mod_cast long_swing hl hm f hsw
          have hTN : (n : K) * dT ≤ N * dT := mul_le_mul_of_nonneg_right hNn hdT.le
          have hq : peak / (N * dT) ≤ peak / (n * dT) := div_le_div_of_nonneg_left hpeak hT hTN
          have hq0 : 0 ≤ peak / (N * dT) := div_nonneg hpeak (hT.le.trans hTN)
          have hq2 : (peak / (N * dT)) ^ 2 ≤ (peak / (n * dT)) ^ 2 := pow_le_pow_left₀ hq0 hq 2
          have hg0 : 0 ≤ gapSq s s' := by unfold gapSq; positivity
          refine ⟨?_, ?_, ?_⟩
          · calc _ ≤ (peak / (N * dT)) ^ 2 * gapSq s s' := h4.speed
              _ ≤ (peak / (n * dT)) ^ 2 * d ^ 2 := mul_le_mul hq2 g1 hg0 (sq_nonneg _)
              _ = _ := by ring
          · have h5 : steep / (N * dT) ^ 4 ≤ steep / (n * dT) ^ 4 :=
              div_le_div_of_nonneg_left hsteep (by positivity) (pow_le_pow_left₀ hT.le hTN 4)
            calc _ ≤ steep / (N * dT) ^ 4 * gapSq s s' := h4.acceleration
              _ ≤ steep / (n * dT) ^ 4 * d ^ 2 := mul_le_mul h5 g1 hg0 (by positivity)
              _ = _ := by ring
          · have h6 : |x.2.omega.z| ≤ peak / (N * dT) * |s'.angle - s.angle| := by
              refine abs_le_of_sq_le_sq' ?_ (mul_nonneg hq0 (abs_nonneg _)) |> abs_le.mpr
              rw [mul_pow, sq_abs]; exact h4.turning
            refine h6.trans ((mul_le_mul hq g2 (abs_nonneg _) (hq0.trans hq)).trans (le_of_eq (by ring)))
        · obtain ⟨s, o, -, h2, h3⟩ := hc p out hp ho f j ph hph hne
          rw [hx2] at h2; cases h2
          obtain ⟨-, -, -, -, -, v1, v2, v3, -⟩ := h3
          refine ⟨?_, ?_, ?_⟩
          · rw [v1]; simp only; rw [zero_pow two_ne_zero, add_zero]; positivity
          · rw [v3]; simp only; rw [zero_pow two_ne_zero, add_zero]; positivity
          · rw [v2, abs_zero]; positivity
      · refine chain_of_getElem? fun j x y hx hy => ?_
        obtain ⟨ph, hph, hiff⟩ := hphase j x hx
        by_cases hne : ph = .swing
        · subst hne
          obtain ⟨a, N, m, s, s', o, e, hmN, hsw, h1, h2, h3, -, h4⟩ := hs p out hp ho f j hph
          rw [(hget j x hx).2] at h3; cases h3
          have h4 := h4 _ (hget _ y hy).2
          obtain ⟨g1, g2⟩ := hspan a N m s s' hmN hsw h1 h2
          have hNn : (n : K) ≤ N := by exact_mod_cast long_swing hl hm f hsw
          have hq : peak / N ≤ peak / n := div_le_div_of_nonneg_left hpeak hn hNn
          have hq0 : 0 ≤ peak / (N : K) := div_nonneg hpeak (hn.le.trans hNn)
          have hq2 : (peak / (N : K)) ^ 2 ≤ (peak / n) ^ 2 := pow_le_pow_left₀ hq0 hq 2
          have hg0 : 0 ≤ gapSq s s' := by unfold gapSq; positivity
          refine ⟨?_, ?_⟩
          · calc _ ≤ (peak / (N : K)) ^ 2 * gapSq s s' := h4.way
              _ ≤ (peak / n) ^ 2 * d ^ 2 := mul_le_mul hq2 g1 hg0 (sq_nonneg _)
              _ = _ := by ring
          · have h6 : |y.2.yaw - x.2.yaw| ≤ peak / N * |s'.angle - s.angle| := by
              refine abs_le_of_sq_le_sq' ?_ (mul_nonneg hq0 (abs_nonneg _)) |> abs_le.mpr
              rw [mul_pow, sq_abs]; exact h4.turn
            refine h6.trans ((mul_le_mul hq g2 (abs_nonneg _) (hq0.trans hq)).trans (le_of_eq (by ring)))
        · have hlt := (List.getElem?_eq_some_iff.mp hy).1
          have hstep := (List.isChain_iff_getElem.mp (hstill f)) j hlt
          rw [(List.getElem?_eq_some_iff.mp hx).2, (List.getElem?_eq_some_iff.mp hy).2] at hstep
          obtain ⟨s1, s2, s3⟩ := hstep (hiff.mpr hne)
          refine ⟨?_, ?_⟩
          · rw [s1, s2, sub_self, sub_self, zero_pow two_ne_zero, add_zero]; positivity
          · rw [s3, sub_self, abs_zero]; positivity

theorem minJerk_pace {n : Nat} {d b : K} (hd : 0 ≤ d) (hb : 0 ≤ b) (hsort : ∀ l r, SortedPtrs l r (sort l r))
    (hw : Walking integ sort dT legs w time) (hl : LongPhases sort dT n w time) (hh : ∀ p, w.minJerk = some p → 0 ≤ p.state.stepHeight)
    (hP : Paired R w.left.steps w.right.steps) (hR : Spans R d b) (f : Bool) :
    (∀ x ∈ footOf Walker.minJerk f w, Paced (15 / 8 * d / (n * dT)) (100 / 3 * d ^ 2 / (n * dT) ^ 4) (15 / 8 * b / (n * dT)) x.2) ∧
    (footOf Walker.minJerk f w).IsChain (Creeps (15 / 8 * d / n) (15 / 8 * b / n)) := by
  obtain ⟨w1, ordered, t, hr, hm⟩ := walking_made hw
  have hpos := shifts_of_long hl hm
  refine pace (by norm_num) (by norm_num) hd hb hsort hl hm (fun p out hp ho f j ph h1 h2 => ?_)
    (minJerk_chain hsort hw (noEmpty_of_long hl) hh) (fun p out hp ho f j h1 => ?_) hP hR f
  all_goals
    obtain ⟨p0, lo, ro, -, a2, a3, a4⟩ := hm.minJerk p hp
    rw [ho] at a3
    cases a3
    have hready := ready_of_history (hr.history.minJerk p hp) (hh p hp)
    rw [a2] at hready
  · exact MinJerk.C43_contact_partial hready (hsort _ _) hm.made hpos a4 f j ph h1 h2
  · obtain ⟨_, _, a, N, _, k1, k2, k3, -⟩ := (MinJerk.runs_of hready (hsort _ _) hm.made hpos a4 f).in_swing h1
    obtain ⟨s, s', g1, g2, h3⟩ := C97_swing hready (hsort _ _) hm.made hpos a4 f a N k3
    obtain ⟨o, o1, o2, -, o3⟩ := h3 (j - a) (by omega)
    have e : a + (j - a) = j := by omega
    rw [e] at o1 o3
    exact ⟨a, N, j - a, s, s', o, e.symm, by omega, k3, g1, g2, o1, o2, o3⟩

theorem cubic_pace {n : Nat} {d b : K} (hd : 0 ≤ d) (hb : 0 ≤ b) (hsort : ∀ l r, SortedPtrs l r (sort l r))
    (hw : Walking integ sort dT legs w time) (hl : LongPhases sort dT n w time) (hh : ∀ p, w.cubic = some p → 0 ≤ p.state.stepHeight)
    (hP : Paired R w.left.steps w.right.steps) (hR : Spans R d b) (f : Bool) :
    (∀ x ∈ footOf Walker.cubic f w, Paced (3 / 2 * d / (n * dT)) (36 * d ^ 2 / (n * dT) ^ 4) (3 / 2 * b / (n * dT)) x.2) ∧
    (footOf Walker.cubic f w).IsChain (Creeps (3 / 2 * d / n) (3 / 2 * b / n)) := by
  obtain ⟨w1, ordered, t, hr, hm⟩ := walking_made hw
  have hpos := shifts_of_long hl hm
  refine pace (by norm_num) (by norm_num) hd hb hsort hl hm (fun p out hp ho f j ph h1 h2 => ?_)
    (cubic_chain hsort hw (noEmpty_of_long hl) hh) (fun p out hp ho f j h1 => ?_) hP hR f
  all_goals
    obtain ⟨p0, lo, ro, -, a2, a3, a4⟩ := hm.cubic p hp
    rw [ho] at a3
    cases a3
    have hready := ready_of_history (hr.history.cubic p hp) (hh p hp)
    rw [a2] at hready
  · exact CubicFeet.C43_spline_contact_partial hready (hsort _ _) hm.made hpos a4 f j ph h1 h2
  · obtain ⟨_, _, a, N, _, k1, k2, k3, -⟩ := (CubicFeet.runs_of hready (hsort _ _) hm.made hpos a4 f).in_swing h1
    obtain ⟨s, s', g1, g2, h3⟩ := C97_spline_swing hready (hsort _ _) hm.made hpos a4 f a N k3
    obtain ⟨o, o1, o2, o3⟩ := h3 (j - a) (by omega)
    have e : a + (j - a) = j := by omega
    rw [e] at o1 o3
    exact ⟨a, N, j - a, s, s', o, e.symm, by omega, k3, g1, g2, o1, o2, o3⟩

end Uni.Walker
