import Verif.Lemmas.Merge
import Verif.Lemmas.Used
import Verif.Props.ZMPWorld

/-! # C88: a walk planned again at a merge point continues the walk in execution -/

set_option autoImplicit false
set_option linter.unusedSectionVars false

namespace Uni.Walker
open Spec Gen Zmp
variable {K : Type} [Field K] [LinearOrder K] [IsStrictOrderedRing K] [FloorRing K] [Trig K]
variable {integ : Integrator K} {sort : Sorter K} {before old new : Walker K} {c : Call K} {k m : Nat} {q : Request K} {dT : K}

section
variable {cfg : GenSettings K} {left right : FootPrint K} {initTime : K} {sorted ordered : List (Ptr K)} {t : Timing K}

/-- Where a foot stands at a sample with both feet on the ground, not the one of a landing. -/
theorem stands_on (hs : SortedPtrs left right sorted) (h : timeline cfg left right initTime dT sorted = .ok (ordered, t))
    (hpos : t.shifts.Pairwise (· < ·)) (f : Bool) (j : Nat) (hj : j < t.left.length)
    (hbefore : ∀ i, i + 1 = j → (if f then t.left else t.right)[i]? ≠ some .swing) (s : Step K)
    (hp : Present (if f then left.steps else right.steps) ((j : K) * dT + initTime) s) :
    (if f then left.steps else right.steps)[landings (if f then t.left else t.right) j]? = some s := by
  obtain ⟨l, r, tt, hr⟩ := timeline_ok h
  have hpp : tt.Positive := positive_of_shifts (by rw [← hr.built.shifts]; exact hpos)
  have e : (if f then t.left else t.right) = tt.phases f := by
    cases f
    · exact hr.built.right
    · exact hr.built.left
  rcases standing_step hs h hpos hr f j hj s (present_standing (steps_increasing hs h hpos f) hp) with h1 | ⟨i, x, h1, h2, h3⟩
  · exact h1
  · exfalso
    obtain ⟨y1, y2⟩ := hpp.1 x (List.mem_of_getElem? h1)
    rw [slotStart_succ _ _ _ h1] at h3
    refine hbefore (j - 1) (by omega) ?_
    rw [e, (phases_slot tt f i x h1).2 (j - 1) (by omega) (by omega), if_pos h2]

/-- The walk starts with both feet on the ground. -/
theorem first_phase (h : timeline cfg left right initTime dT sorted = .ok (ordered, t)) (hpos : t.shifts.Pairwise (· < ·)) (f : Bool) :
    0 < t.left.length ∧ ((if f then t.left else t.right)[0]? = some .switchIn ∨ (if f then t.left else t.right)[0]? = some .switchOut) := by
  obtain ⟨l0, r0, tt, hrun⟩ := timeline_ok h
  have hp : tt.Positive := positive_of_shifts (by rw [← hrun.built.shifts]; exact hpos)
  have e : (if f then t.left else t.right) = tt.phases f := by
    cases f
    · exact hrun.built.right
    · exact hrun.built.left
  have hl : t.left.length = slotStart tt.slots tt.slots.length + tt.rest := by
    rw [hrun.built.left, tt.length_phases, total_eq]
  refine ⟨by have := hp.2; omega, ?_⟩
  rw [e]
  cases hsl : tt.slots with
  | nil =>
    have := phases_rest tt f 0 (by rw [hsl]; simp [slotStart, slotSegs, total]) (by rw [total_eq]; have := hp.2; omega)
    rw [this]; split_ifs <;> simp
  | cons s ss =>
    have hk : tt.slots[0]? = some s := by rw [hsl]; rfl
    have e0 : slotStart tt.slots 0 = 0 := by simp [slotStart, slotSegs, total]
    have := (phases_slot tt f 0 s hk).1 0 (by omega) (by have := (hp.1 s (by rw [hsl]; simp)).1; omega)
    rw [this]; split_ifs <;> simp

theorem first_shift (h : timeline cfg left right initTime dT sorted = .ok (ordered, t)) (hpos : t.shifts.Pairwise (· < ·)) :
    ∃ first, t.shifts[0]? = some 0 ∧ t.shifts[1]? = some first ∧ 0 < first ∧ first ≤ t.left.length := by
  obtain ⟨hN, -⟩ := first_phase h hpos true
  obtain ⟨-, p2, p3, -, -⟩ := C34_partition h
  have h0 : t.shifts[0]? = some 0 := by rw [← List.head?_eq_getElem?]; exact p3
  rw [List.getLast?_eq_getElem?] at p2
  have hlen : 1 < t.shifts.length := by
    by_contra hc
    have e : t.shifts.length - 1 = 0 := by omega
    rw [e, h0] at p2
    injection p2 with p2
    omega
  refine ⟨t.shifts[1], h0, List.getElem?_eq_getElem hlen, ?_, shift_mono h (List.getElem?_eq_getElem hlen) p2 (by omega)⟩
  obtain ⟨a1, a2⟩ := List.getElem?_eq_some_iff.mp h0
  have := List.pairwise_iff_getElem.mp hpos 0 1 a1 hlen (by omega)
  omega

/-- A walk starts with the ZMP of each foot at the stance offset. -/
theorem local_start {z z' : Zmp K} {o : ZmpOut K} (h : timeline cfg left right initTime dT sorted = .ok (ordered, t))
    (hpos : t.shifts.Pairwise (· < ·))
    (ho : z.computeNewTrajectories cfg initTime dT t.merges left right (ordered.map Ptr.step) t.left t.right t.shifts = .ok (z', o))
    (f : Bool) : (if f then o.localL else o.localR)[0]? = some (still (if f then z.leftStance else z.rightStance)) := by
  obtain ⟨hN, hd⟩ := first_phase h hpos f
  obtain ⟨first, h0, hf, hfpos, -⟩ := first_shift h hpos
  obtain ⟨l0, r0, tt, hrun⟩ := timeline_ok h
  obtain ⟨-, h2⟩ := local_at h ho f
  obtain ⟨i', a', b', p, l, q1, q2, q3, q4, q5, q6, q7, -⟩ := h2 0 hN
  obtain ⟨rfl, rfl, rfl⟩ := shift_unique h h0 hf (le_refl _) hfpos q1 q2 q3 q4
  rw [q7]
  refine (localBody_at hrun.dT_pos q6 (0 - 0) (by omega)).1 ?_
  have := q5 0 (le_refl _) hfpos
  rcases hd with hd | hd
  · rw [hd] at this; cases this; simp
  · rw [hd] at this; cases this; simp

/-- The odd phases of a walk are single supports. -/
theorem odd_single (h : timeline cfg left right initTime dT sorted = .ok (ordered, t)) {i a b j : Nat} (ha : t.shifts[2 * i + 1]? = some a)
    (hb : t.shifts[2 * i + 2]? = some b) (hj : a ≤ j) (hjb : j < b) : t.left[j]? = some .swing ∨ t.right[j]? = some .swing := by
  obtain ⟨l0, r0, tt, hr⟩ := timeline_ok h
  have hi : i < tt.slots.length := by
    have := (List.getElem?_eq_some_iff.mp hb).1
    simp only [hr.built.shifts, Timetable.shifts, List.length_cons, length_ends, segs_eq, List.length_append, slotSegs_length,
      List.length_nil] at this
    omega
  obtain ⟨-, e1, e2⟩ := shifts_slot tt i _ (List.getElem?_eq_getElem hi)
  rw [hr.built.shifts, e1] at ha
  rw [hr.built.shifts, e2] at hb
  cases ha
  cases hb
  have k1 := (phases_slot tt true i _ (List.getElem?_eq_getElem hi)).2 j hj hjb
  have k2 := (phases_slot tt false i _ (List.getElem?_eq_getElem hi)).2 j hj hjb
  rw [hr.built.left, hr.built.right, k1, k2]
  cases (tt.slots[i]).left <;> simp

/-- In the second half of a double support between two steps, without a pause, the ZMPs of the feet are at the stance offsets. -/
theorem local_half {z z' : Zmp K} {o : ZmpOut K} (hv : ValidTimings cfg) {a b m : Nat}
    (hpa : cfg.pauseActive = true → ((b - a : Nat) : K) * dT ≤
      max (cfg.switchPercentage * cfg.maxStepTime) (cfg.endSwitch + cfg.switchPercentage * cfg.nominalStepTime))
    (h : timeline cfg left right initTime dT sorted = .ok (ordered, t)) (hpos : t.shifts.Pairwise (· < ·))
    (ho : z.computeNewTrajectories cfg initTime dT t.merges left right (ordered.map Ptr.step) t.left t.right t.shifts = .ok (z', o))
    (hab : ∀ j, a ≤ j → j < b → (contacts t.left)[j]? = some true ∧ (contacts t.right)[j]? = some true) (ham : a ≤ m) (hmb : m < b)
    (hbefore : ∃ j, j + 1 = a ∧ ((contacts t.left)[j]? = some false ∨ (contacts t.right)[j]? = some false))
    (hafter : (contacts t.left)[b]? = some false ∨ (contacts t.right)[b]? = some false) (hhalf : b - a ≤ 2 * (m - a)) (f : Bool) :
    ((if f then o.localL else o.localR)[m]?.map fun z => (⟨z.1.pos, z.2.pos⟩ : Vec2 K)) = some (if f then z.leftStance else z.rightStance) := by
  obtain ⟨j0, hj0, hb0⟩ := hbefore
  have down : ∀ j : Nat, t.left[j]? = some .swing ∨ t.right[j]? = some .swing →
      ¬ ((contacts t.left)[j]? = some true ∧ (contacts t.right)[j]? = some true) := by
    rintro j (h1 | h1) ⟨h2, h3⟩
    · simp [contacts, h1] at h2
    · simp [contacts, h1] at h3
  obtain ⟨hj, p1, p2, e1, e2, n1, n2⟩ := both_down h (hab m ham hmb).1 (hab m ham hmb).2
  obtain ⟨hlen, hlast, -, -, pp⟩ := C34_partition h
  obtain ⟨-, h2⟩ := local_at h ho true
  obtain ⟨i, a', b', p, l, q1, q2, q3, q4, -, -, -, -⟩ := h2 m hj
  obtain ⟨pl, pr, pq⟩ := pp i a' b' q1 q2
  have same : ∀ j, a' ≤ j → j < b' → (contacts t.left)[j]? = some true ∧ (contacts t.right)[j]? = some true := by
    intro j hj1 hj2
    obtain ⟨c1, c2⟩ := pq j hj1 hj2
    obtain ⟨c3, c4⟩ := pq m q3 q4
    have := hab m ham hmb
    simp only [contacts, List.getElem?_map, c3, c4] at this
    simp only [contacts, List.getElem?_map, c1, c2]
    exact this
  obtain ⟨k, rfl | rfl⟩ : ∃ k, i = 2 * k ∨ i = 2 * k + 1 := ⟨i / 2, by omega⟩
  swap
  · exact absurd (hab m ham hmb) (down m (odd_single h q1 q2 q3 q4))
  -- the double support begins at `a`
  have le1 : a ≤ a' := by
    by_contra hc
    obtain ⟨c1, c2⟩ := same j0 (by omega) (by omega)
    rw [c1, c2] at hb0
    simp at hb0
  have hk : k ≠ 0 := by
    rintro rfl
    obtain ⟨-, -, p3, -, -⟩ := C34_partition h
    rw [List.head?_eq_getElem?] at p3
    rw [p3] at q1
    cases q1
    omega
  obtain ⟨k, rfl⟩ : ∃ k', k = k' + 1 := ⟨k - 1, by omega⟩
  have ea : a' = a := by
    by_contra hne
    have hlt : 2 * k + 1 < t.shifts.length := by have := (List.getElem?_eq_some_iff.mp q1).1; omega
    refine down (a' - 1) ?_ (hab (a' - 1) (by omega) (by omega))
    refine odd_single h (List.getElem?_eq_getElem hlt) q1 ?_ (by omega)
    obtain ⟨x1, x2⟩ := List.getElem?_eq_some_iff.mp q1
    have := List.pairwise_iff_getElem.mp hpos (2 * k + 1) (2 * (k + 1)) hlt x1 (by omega)
    omega
  subst ea
  -- and ends at `b`
  have hbl : b < t.left.length := by
    rcases hafter with h | h
    · have := (List.getElem?_eq_some_iff.mp h).1
      simpa [contacts] using this
    · have := (List.getElem?_eq_some_iff.mp h).1
      rw [hlen]
      simpa [contacts] using this
  have le2 : b' ≤ b := by
    by_contra hc
    obtain ⟨c1, c2⟩ := same b (by omega) (by omega)
    rw [c1, c2] at hafter
    simp at hafter
  obtain ⟨x1, x2⟩ := List.getElem?_eq_some_iff.mp q2
  have hlt : 2 * (k + 1) + 2 < t.shifts.length := by
    by_contra hc
    rw [List.getLast?_eq_getElem?, show t.shifts.length - 1 = 2 * (k + 1) + 1 by omega, q2] at hlast
    injection hlast
    omega
  have eb : b' = b := by
    by_contra hne
    refine down b' (odd_single h q2 (List.getElem?_eq_getElem hlt) (le_refl _) ?_) (hab b' (by omega) (by omega))
    have := List.pairwise_iff_getElem.mp hpos (2 * (k + 1) + 1) (2 * (k + 1) + 2) x1 hlt (by omega)
    omega
  subst eb
  -- the ZMP is back at the stance offset
  obtain ⟨ph, hph, hph'⟩ : ∃ ph, (if f then t.left else t.right)[m]? = some ph ∧ (ph = .switchIn ∨ ph = .switchOut) := by
    cases f
    · exact ⟨p2, e2, n2⟩
    · exact ⟨p1, e1, n1⟩
  rcases hph' with rfl | rfl
  · obtain ⟨x, y, s1, -, s3⟩ := C70_segment h ho f _ _ rfl rfl m hj
    obtain ⟨s4, s5⟩ := s3 (Or.inr hph)
    rw [s1, s4, s5]
    rfl
  · obtain ⟨l0, r0, tt, hrun⟩ := timeline_ok h
    obtain ⟨x, y, s, s1, s2, s3, s4, s5⟩ := C70_back hv h ho f _ _ rfl rfl (2 * (k + 1)) a' b' m (by omega) q1 q2 q3 q4 hph _ _ rfl rfl
    rw [if_neg (by rintro ⟨h1, h2⟩; exact absurd (hpa h1) (not_le.2 h2)), if_neg (by omega)] at s2 s3
    have hd := hrun.dT_pos
    have hs1 : s = 1 := by
      rw [s2]
      refine min_eq_left ((one_le_div s3).mpr ?_)
      have : ((b' - a' : Nat) : K) ≤ 2 * ((m - a' : Nat) : K) := by exact_mod_cast hhalf
      nlinarith
    rw [s1, Option.map_some, s5, hs1]
    congr 1
    ext <;> simp <;> ring

end

theorem atRestOn_unique {s s' : Step K} {o o' : FootSample K} (hp : s'.position = s.position) (ha : s'.angle = s.angle)
    (h : AtRestOn s o) (h' : AtRestOn s' o') : o' = o := by
  obtain ⟨a1, a2, a3, a4, a5, a6, a7, a8, a9⟩ := h
  obtain ⟨b1, b2, b3, b4, b5, b6, b7, b8, b9⟩ := h'
  rw [hp] at b1 b2
  rw [ha] at b5
  ext <;> simp_all

/-- Where a contact is after a correction. -/
private def placeAfter (measured : Option (Vec2 K × K)) (s : Step K) : Vec2 K × K :=
  match measured with
  | none => (s.position, s.angle)
  | some (p, angle) => (p, s.angle + turnBetween s.angle angle)

private theorem atRestOn_moved {measured : Option (Vec2 K × K)} {s s' : Step K} {o o' : FootSample K}
    (hp : (s'.position, s'.angle) = placeAfter measured s) (h : AtRestOn s o) (h' : AtRestOn s' o') : o' = movedTo measured o := by
  rcases measured with _ | ⟨p, a⟩
  · injection hp with h1 h2
    exact atRestOn_unique h1 h2 h h'
  · injection hp with h1 h2
    obtain ⟨a1, a2, a3, a4, a5, a6, a7, a8, a9⟩ := h
    obtain ⟨b1, b2, b3, b4, b5, b6, b7, b8, b9⟩ := h'
    rw [h1] at b1 b2
    rw [h2, ← a5] at b5
    unfold movedTo
    ext <;> simp_all

/-- Old and new trajectories of the feet, if both generators put the feet that are on the ground where the steps are. -/
theorem feet_continue {w1 w3 : Walker K} {ordered ordered' : List (Ptr K)} {t t' : Timing K} {weight : Motion K} {pos vel : Vec2 K}
    {sL sR cL cR : Step K} (hsort : ∀ l r, SortedPtrs l r (sort l r))
    (hm1 : MadeBy w1 old (timesOf c).1 (timesOf c).2 (sort old.left old.right) ordered t)
    (hm3 : MadeBy w3 new (timeOf c m) dT (sort new.left new.right) ordered' t')
    (parts : Parts old new w3 (timeOf c m) dT weight pos vel q sL sR cL cR) (hpos : t.shifts.Pairwise (· < ·))
    (hpos' : t'.shifts.Pairwise (· < ·)) (hdown : BothDown old m) (hbefore : ∀ j, j + 1 = m → BothDown old j)
    {lo ro lo' ro' : List (FootSample K)}
    (hc : ∀ (f : Bool) (j : Nat) (p : Phase), (if f then t.left else t.right)[j]? = some p → p ≠ .swing →
      ∃ s o, (if f then old.left.steps else old.right.steps)[landings (if f then t.left else t.right) j]? = some s ∧
        (if f then lo else ro)[j]? = some o ∧ AtRestOn s o)
    (hc' : ∀ (f : Bool) (j : Nat) (p : Phase), (if f then t'.left else t'.right)[j]? = some p → p ≠ .swing →
      ∃ s o, (if f then new.left.steps else new.right.steps)[landings (if f then t'.left else t'.right) j]? = some s ∧
        (if f then lo' else ro')[j]? = some o ∧ AtRestOn s o) (f : Bool) :
    ∃ a, (if f then lo else ro)[m]? = some a ∧ (if f then lo' else ro')[0]? = some (movedTo (measuredOf f q) a) := by
  rw [BothDown, hm1.outputs] at hdown
  obtain ⟨hj, a, b, ha, hb, na, nb⟩ := both_down hm1.made hdown.1 hdown.2
  obtain ⟨-, hd'⟩ := first_phase hm3.made hpos' f
  have hsw : ∀ i, i + 1 = m → (if f then t.left else t.right)[i]? ≠ some .swing := by
    intro i hi
    have := hbefore i hi
    rw [BothDown, hm1.outputs] at this
    obtain ⟨-, a, b, ha, hb, na, nb⟩ := both_down hm1.made this.1 this.2
    cases f
    · simp only [Bool.false_eq_true, if_false, hb]; rcases nb with rfl | rfl <;> simp
    · simp only [if_true, ha]; rcases na with rfl | rfl <;> simp
  obtain ⟨s, place, s1, s2⟩ : ∃ s : Step K, Present (if f then old.left.steps else old.right.steps) (timeOf c m) s ∧
      ∃ s', (if f then new.left.steps else new.right.steps).head? = some s' ∧ (s'.position, s'.angle) =
        placeAfter (measuredOf f q) s := by
    cases f
    · obtain ⟨s', e1, e2, e3⟩ := parts.rightHead
      refine ⟨sR, parts.right, s', e1, ?_⟩
      rw [e2, e3, parts.rightPlace]
      rcases q with _ | _ | ⟨b, _, _⟩ | _ <;> try rfl
      cases b <;> rfl
    · obtain ⟨s', e1, e2, e3⟩ := parts.leftHead
      refine ⟨sL, parts.left, s', e1, ?_⟩
      rw [e2, e3, parts.leftPlace]
      rcases q with _ | _ | ⟨b, _, _⟩ | _ <;> try rfl
      cases b <;> rfl
  have hon := stands_on (hsort _ _) hm1.made hpos f m hj hsw s place
  obtain ⟨p, hp, hne⟩ : ∃ p, (if f then t.left else t.right)[m]? = some p ∧ p ≠ .swing := by
    cases f
    · exact ⟨b, hb, by rcases nb with rfl | rfl <;> simp⟩
    · exact ⟨a, ha, by rcases na with rfl | rfl <;> simp⟩
  obtain ⟨s₁, o, e1, e2, e3⟩ := hc f m p hp hne
  rw [hon] at e1
  cases e1
  obtain ⟨p', hp', hne'⟩ : ∃ p, (if f then t'.left else t'.right)[0]? = some p ∧ p ≠ .swing := by
    rcases hd' with h | h
    · exact ⟨_, h, by simp⟩
    · exact ⟨_, h, by simp⟩
  obtain ⟨s₂, o', f1, f2, f3⟩ := hc' f 0 p' hp' hne'
  have h0 : landings (if f then t'.left else t'.right) 0 = 0 := by simp [landings]
  rw [h0, ← List.head?_eq_getElem?, s2.1] at f1
  cases f1
  refine ⟨o, e2, ?_⟩
  rw [f2, atRestOn_moved s2.2 e3 f3]

/-- C88: the feet do not jump where they have not been measured to be elsewhere: if the walk is planned again at a sample with both
feet on the ground which is not the one of a landing, the first sample of the new walk is the sample at which the walk in execution
is left, except that the feet with a measurement stand where they were measured. -/
theorem C88_corrected (hpi : (0 : K) ≤ Trig.pi) (hsort : ∀ l r, SortedPtrs l r (sort l r)) (h : Merging integ sort before old new c k m q dT)
    (hL : NonNeg old.left) (hR : NonNeg old.right) (hold : NoEmptyPhase sort old (timesOf c).1 (timesOf c).2)
    (hnew : NoEmptyPhase sort new (timeOf c m) dT) (hdown : BothDown old m) (hbefore : ∀ j, j + 1 = m → BothDown old j)
    (hcubic : ∀ p, old.cubic = some p → 0 ≤ p.state.stepHeight) (hjerk : ∀ p, old.minJerk = some p → 0 ≤ p.state.stepHeight) :
    FeetCorrected old.cubic new.cubic m q ∧ FeetCorrected old.minJerk new.minJerk m q := by
  obtain ⟨w1, ordered, t, w3, ordered', t', weight, pos, vel, sL, sR, cL, cR, hm1, hm3, -, -, parts⟩ := parts hpi h hL hR
  have hpos := hold _ _ hm1.made
  have hpos' := hnew _ _ hm3.made
  obtain ⟨fuel0, hg⟩ := h.generated
  have hro : Reached integ sort old := .call _ _ _ _ _ h.reached hg
  have ready : ∀ s : FeetSettings K, FeetMade s → 0 ≤ s.stepHeight → MinJerk.Ready s := by
    rintro s ⟨ops, rfl⟩ h
    exact ⟨h, (feet_apex ops).1, (feet_apex ops).2⟩
  constructor
  · intro p p' hp hp'
    obtain ⟨p0, lo, ro, a1, a2, a3, a4⟩ := hm1.cubic p hp
    obtain ⟨p2, lo', ro', b1, b2, b3, b4⟩ := hm3.cubic p' hp'
    rw [parts.cubic, hp] at b1
    cases b1
    have hr := ready _ (hro.history.cubic p hp) (hcubic p hp)
    have key := feet_continue hsort hm1 hm3 parts hpos hpos' hdown hbefore
      (CubicFeet.C43_spline_contact_partial (by rw [← a2]; exact hr) (hsort _ _) hm1.made hpos a4)
      (CubicFeet.C43_spline_contact_partial hr (hsort _ _) hm3.made hpos' b4)
    exact ⟨lo, ro, lo', ro', a3, b3, key⟩
  · intro p p' hp hp'
    obtain ⟨p0, lo, ro, a1, a2, a3, a4⟩ := hm1.minJerk p hp
    obtain ⟨p2, lo', ro', b1, b2, b3, b4⟩ := hm3.minJerk p' hp'
    rw [parts.minJerk, hp] at b1
    cases b1
    have hr := ready _ (hro.history.minJerk p hp) (hjerk p hp)
    have key := feet_continue hsort hm1 hm3 parts hpos hpos' hdown hbefore
      (MinJerk.C43_contact_partial (by rw [← a2]; exact hr) (hsort _ _) hm1.made hpos a4)
      (MinJerk.C43_contact_partial hr (hsort _ _) hm3.made hpos' b4)
    exact ⟨lo, ro, lo', ro', a3, b3, key⟩

/-- C88: a foot with a measurement starts at the measured position, with the measured orientation, written in the turn closest to the
angle it had. -/
theorem C88_measured (p : Vec2 ℝ) (angle : ℝ) (a : FootSample ℝ) :
    (movedTo (some (p, angle)) a).pos = ⟨p.x, p.y, a.pos.z⟩ ∧
    (∃ n : ℤ, (movedTo (some (p, angle)) a).yaw = angle + n * (2 * Real.pi)) ∧ |(movedTo (some (p, angle)) a).yaw - a.yaw| ≤ Real.pi ∧
    (movedTo (some (p, angle)) a).vel = a.vel ∧ (movedTo (some (p, angle)) a).omega = a.omega ∧
    (movedTo (some (p, angle)) a).acc = a.acc ∧ (movedTo (some (p, angle)) a).alpha = a.alpha := by
  obtain ⟨h1, h2, n, h3⟩ := relativeYaw_real a.yaw angle
  change -Real.pi < turnBetween a.yaw angle at h1
  change turnBetween a.yaw angle ≤ Real.pi at h2
  change turnBetween a.yaw angle = _ at h3
  refine ⟨rfl, ⟨n, ?_⟩, ?_, rfl, rfl, rfl, rfl⟩
  · show a.yaw + turnBetween a.yaw angle = _
    rw [h3]; ring
  · show |a.yaw + turnBetween a.yaw angle - a.yaw| ≤ _
    rw [add_sub_cancel_left, abs_le]
    exact ⟨h1.le, h2⟩

/-- C88: the feet do not jump: if the walk is planned again at a sample with both feet on the ground which is not the one of a
landing, without measurements, the first sample of the new walk is the sample at which the walk in execution is left. -/
theorem C88_feet (hpi : (0 : K) ≤ Trig.pi) (hsort : ∀ l r, SortedPtrs l r (sort l r)) (h : Merging integ sort before old new c k m .plain dT)
    (hL : NonNeg old.left) (hR : NonNeg old.right) (hold : NoEmptyPhase sort old (timesOf c).1 (timesOf c).2)
    (hnew : NoEmptyPhase sort new (timeOf c m) dT) (hdown : BothDown old m) (hbefore : ∀ j, j + 1 = m → BothDown old j)
    (hcubic : ∀ p, old.cubic = some p → 0 ≤ p.state.stepHeight) (hjerk : ∀ p, old.minJerk = some p → 0 ≤ p.state.stepHeight) :
    FeetContinue old.cubic new.cubic m ∧ FeetContinue old.minJerk new.minJerk m := by
  obtain ⟨h1, h2⟩ := C88_corrected hpi hsort h hL hR hold hnew hdown hbefore hcubic hjerk
  constructor
  · intro p p' hp hp'
    obtain ⟨lo, ro, lo', ro', e1, e2, e3⟩ := h1 p p' hp hp'
    obtain ⟨a, k1, k2⟩ := e3 true
    obtain ⟨b, k3, k4⟩ := e3 false
    exact ⟨lo, ro, lo', ro', a, b, e1, e2, k1, k2, k3, k4⟩
  · intro p p' hp hp'
    obtain ⟨lo, ro, lo', ro', e1, e2, e3⟩ := h2 p p' hp hp'
    obtain ⟨a, k1, k2⟩ := e3 true
    obtain ⟨b, k3, k4⟩ := e3 false
    exact ⟨lo, ro, lo', ro', a, b, e1, e2, k1, k2, k3, k4⟩

/-- C88: the height of the centre of mass does not jump at a sample with both feet on the ground. -/
theorem C88_height (hpi : (0 : K) ≤ Trig.pi) (h : Merging integ sort before old new c k m q dT)
    (hL : NonNeg old.left) (hR : NonNeg old.right) (hnew : NoEmptyPhase sort new (timeOf c m) dT) (hdown : BothDown old m) :
    ∀ p p', old.height = some p → new.height = some p' → ∃ o o' a, p.result = some o ∧ p'.result = some o' ∧ o[m]? = some a ∧
      o'[0]? = some a := by
  obtain ⟨w1, ordered, t, w3, ordered', t', weight, pos, vel, sL, sR, cL, cR, hm1, hm3, -, -, parts⟩ := parts hpi h hL hR
  intro p p' hp hp'
  obtain ⟨p0, o, a1, a2, a3, a4⟩ := hm1.height p hp
  obtain ⟨p2, o', b1, b2, b3, b4⟩ := hm3.height p' hp'
  rw [parts.height, hp] at b1
  cases b1
  rw [BothDown, hm1.outputs] at hdown
  obtain ⟨hj, a, b, ha, hb, na, nb⟩ := both_down hm1.made hdown.1 hdown.2
  have e1 := (CoMHeight.C51_double hm1.made a4).2 m a ha na
  obtain ⟨-, hd'⟩ := first_phase hm3.made (hnew _ _ hm3.made) true
  simp only [if_true] at hd'
  have e2 : o'[0]? = some ⟨p.state.height, 0, 0⟩ := by
    rcases hd' with h | h
    · exact (CoMHeight.C51_double hm3.made b4).2 0 _ h (Or.inl rfl)
    · exact (CoMHeight.C51_double hm3.made b4).2 0 _ h (Or.inr rfl)
  rw [← a2] at e1
  exact ⟨o, o', _, a3, b3, e1, e2⟩

/-- C88: the DCM does not jump: position and velocity at the first sample of the new walk are those of the sample at which the walk
in execution is left. -/
theorem C88_dcm (hpi : (0 : K) ≤ Trig.pi) (hexp : Trig.exp (0 : K) = 1) (hsort : ∀ l r, SortedPtrs l r (sort l r))
    (h : Merging integ sort before old new c k m q dT) (hL : NonNeg old.left) (hR : NonNeg old.right)
    (hnew : NoEmptyPhase sort new (timeOf c m) dT) (hnames : LeftRight old.left old.right)
    (hv : ∀ p, old.dcm = some p → ValidDcm p.state) :
    ∀ p p', old.dcm = some p → new.dcm = some p' → ∃ o o' a b, p.result = some o ∧ p'.result = some o' ∧ o.samples[m]? = some a ∧
      o'.samples[0]? = some b ∧ b.pos = a.pos ∧ b.vel = a.vel := by
  obtain ⟨w1, ordered, t, w3, ordered', t', weight, pos, vel, sL, sR, cL, cR, hm1, hm3, -, hdcm, parts⟩ := parts hpi h hL hR
  intro p p' hp hp'
  obtain ⟨p0, o, a1, a2, a3⟩ := hm1.dcm p hp
  obtain ⟨p2, o', b1, b2, b3⟩ := hm3.dcm p' hp'
  rw [parts.dcm, hp] at b1
  cases b1
  obtain ⟨fuel0, hg⟩ := h.generated
  have hro : Reached integ sort old := .call _ _ _ _ _ h.reached hg
  have hvalid : ValidTimings new.cfg := by rw [hm3.cfg, parts.cfg]; exact hro.valid
  obtain ⟨s, s1, s2, s3⟩ := hdcm p o hp a2
  obtain ⟨n1, n2⟩ := parts.leftNamed
  obtain ⟨n3, n4⟩ := parts.rightNamed
  obtain ⟨v1, v2, v3⟩ := hv p hp
  obtain ⟨-, s', -, -, -, -, e1, e2, e3⟩ := Dcm.C47_start (d := (p.state.setDCMInitialState pos vel).2) hexp
    ⟨hvalid, hsort _ _, hm3.made, hnew _ _ hm3.made, n2.trans hnames.left_name, n4.trans hnames.right_name, n1, n3⟩
    ⟨v1, v2, v3⟩ b3 rfl (init := (pos, vel)) rfl
  exact ⟨o, o', s, s', a2, b2, s1, e1, e2.trans s2.symm, e3.trans s3.symm⟩

/-- C88: the load of the feet and its velocity do not jump; the ZMP does not jump if at the sample at which the walk in execution is
left, which must not belong to the first double support, the ZMPs in the frames of the feet are at the stance offsets.  This holds
with corrections and resets too: the ZMP starts from where it was and moves to the corrected steps. -/
theorem C88_zmp (hpi : (0 : K) ≤ Trig.pi) (hsort : ∀ l r, SortedPtrs l r (sort l r)) (h : Merging integ sort before old new c k m q dT)
    (hL : NonNeg old.left) (hR : NonNeg old.right) (hold : NoEmptyPhase sort old (timesOf c).1 (timesOf c).2)
    (hnew : NoEmptyPhase sort new (timeOf c m) dT) (hnames : Named old.left ∧ Named old.right)
    (hdown : BothDown old m)
    (hlater : ∃ j, j < m ∧ ¬ BothDown old j) :
    ∀ p p', old.zmp = some p → new.zmp = some p' → ∃ o o' wl wl' wr wr' w w', p.result = some o ∧ p'.result = some o' ∧
      o.weightL[m]? = some wl ∧ o'.weightL[0]? = some wl' ∧ o.weightR[m]? = some wr ∧ o'.weightR[0]? = some wr' ∧
      o.world[m]? = some w ∧ o'.world[0]? = some w' ∧
      wl'.pos = wl.pos ∧ wl'.vel = wl.vel ∧ wr'.pos = wr.pos ∧ wr'.vel = wr.vel ∧
      ((∀ f : Bool, ((if f then o.localL else o.localR)[m]?.map fun z => (⟨z.1.pos, z.2.pos⟩ : Vec2 K)) =
        some (if f then p.state.leftStance else p.state.rightStance)) → w'.pos = w.pos) := by
  obtain ⟨w1, ordered, t, w3, ordered', t', weight, pos, vel, sL, sR, cL, cR, hm1, hm3, hwt, -, parts⟩ := parts hpi h hL hR
  have hpos := hold _ _ hm1.made
  have hpos' := hnew _ _ hm3.made
  intro p p' hp hp'
  obtain ⟨p0, o, a1, a2, a3⟩ := hm1.zmp p hp
  obtain ⟨p2, o', b1, b2, b3⟩ := hm3.zmp p' hp'
  obtain ⟨fuel0, hg⟩ := h.generated
  have hro : Reached integ sort old := .call _ _ _ _ _ h.reached hg
  have hvalid : ValidTimings old.cfg := hro.valid
  have hvalid' : ValidTimings new.cfg := by rw [hm3.cfg, parts.cfg]; exact hro.valid
  -- the state of the generator
  obtain ⟨-, -, i3, -, -, -, i7, i8, -, -⟩ := compute_inv a3
  have hst : p2.state.leftStance = p.state.leftStance ∧ p2.state.rightStance = p.state.rightStance ∧
      p2.state.initialSpecified = true ∧ p2.state.initialState = weight := by
    rcases parts.zmp with ⟨e, -⟩ | e <;> rw [e, hp] at b1 <;> cases b1 <;> exact ⟨rfl, rfl, rfl, rfl⟩
  -- the weights
  have hk : t.merges[k]? = some m := by have := h.point; rwa [hm1.outputs] at this
  obtain ⟨-, st⟩ := C69_states hvalid (hsort _ _) hm1.made hpos a3
  obtain ⟨wl, l1, l2⟩ := st k m hk
  rw [hwt p hp] at l2
  cases l2
  obtain ⟨wl', l3, l4, l5⟩ := C69_start hvalid' hm3.made hpos' b3
  rw [hst.2.2.1, hst.2.2.2] at l4 l5
  simp only [if_true] at l4 l5
  have hmir := (compute_inv b3).2.2.1
  have r1 : o.weightR[m]? = some ⟨1 - weight.pos, -weight.vel, -weight.acc⟩ := by rw [i3, mirror, List.getElem?_map, l1]; rfl
  have r2 : o'.weightR[0]? = some ⟨1 - wl'.pos, -wl'.vel, -wl'.acc⟩ := by rw [hmir, mirror, List.getElem?_map, l3]; rfl
  -- the positions
  rw [BothDown, hm1.outputs] at hdown
  obtain ⟨hj, -⟩ := both_down hm1.made hdown.1 hdown.2
  obtain ⟨first, s0, s1, s2, s3⟩ := first_shift hm1.made hpos
  obtain ⟨first', s0', s1', s2', s3'⟩ := first_shift hm3.made hpos'
  have hfm : first ≤ m := by
    by_contra hc
    obtain ⟨j, hj1, hj2⟩ := hlater
    apply hj2
    obtain ⟨-, -, -, -, pp⟩ := C34_partition hm1.made
    obtain ⟨pl, pr, pq⟩ := pp 0 0 first s0 s1
    obtain ⟨c1, c2⟩ := pq m (by omega) (by omega)
    obtain ⟨c3, c4⟩ := pq j (by omega) (by omega)
    rw [BothDown, hm1.outputs]
    simp only [contacts, List.getElem?_map, c1, c2] at hdown
    simp only [contacts, List.getElem?_map, c3, c4]
    exact hdown
  obtain ⟨xl, yl, xr, yr, vl, vr, sl, sr, w, u1, u2, u3, u4, u5, u6, u7, u8⟩ := C45_average (hsort _ _) hm1.made hnames.1 hnames.2 a3 first s1 m hj hfm
  have d1 := present_standing (steps_increasing (hsort _ _) hm1.made hpos true) parts.left
  have d2 := present_standing (steps_increasing (hsort _ _) hm1.made hpos false) parts.right
  have z1 := standing_unique (steps_increasing (hsort _ _) hm1.made hpos true) u5 d1
  have z2 := standing_unique (steps_increasing (hsort _ _) hm1.made hpos false) u6 d2
  subst z1 z2
  obtain ⟨ol, or, k1, k2, k3, k4, k5, k6⟩ : ∃ ol or : Step K,
      (if p2.state.previousSpecified then ol = p2.state.previousLeft else new.left.steps.head? = some ol) ∧
      (if p2.state.previousSpecified then or = p2.state.previousRight else new.right.steps.head? = some or) ∧
      ol.position = sl.position ∧ ol.angle = sl.angle ∧ or.position = sr.position ∧ or.angle = sr.angle := by
    rcases parts.zmp with ⟨e, e1, e2, e3, e4⟩ | e
    · rw [e, hp] at b1
      cases b1
      obtain ⟨x, x1, x2, x3⟩ := parts.leftHead
      obtain ⟨y, y1, y2, y3⟩ := parts.rightHead
      have hps : (p.state.setWeightInitialState weight).previousSpecified = false := i8
      simp only [hps, Bool.false_eq_true, if_false]
      exact ⟨x, y, x1, y1, x2.trans e1, x3.trans e2, y2.trans e3, y3.trans e4⟩
    · rw [e, hp] at b1
      cases b1
      exact ⟨_, _, rfl, rfl, rfl, rfl, rfl, rfl⟩
  obtain ⟨xl', yl', xr', yr', vl', vr', w', v1, v2, v3, v4, v5, v6⟩ := C45_start (hsort _ _) hm3.made parts.leftNamed.1 parts.rightNamed.1 b3
    ol or k1 k2 first' s1' s2'
  refine ⟨o, o', weight, wl', _, _, w, w', a2, b2, l1, l3, r1, r2, u7, v5, l4, l5, by simp only [l4], by simp only [l5], fun hloc => ?_⟩
  have g1 := local_start hm3.made hpos' b3 true
  have g2 := local_start hm3.made hpos' b3 false
  have g3 := hloc true
  have g4 := hloc false
  simp only [if_true, Bool.false_eq_true, if_false] at g1 g2 g3 g4
  rw [v1, hst.1] at g1
  rw [v2, hst.2.1] at g2
  rw [u1] at g3
  rw [u2] at g4
  rw [l1] at u3
  rw [l3] at v3
  rw [r1] at u4
  rw [r2] at v4
  cases g1; cases g2; cases u3; cases v3; cases u4; cases v4
  simp only [Option.map_some, Option.some.injEq] at g3 g4
  rw [v6, u8, g3, g4, l4]
  unfold inWorld
  rw [k3, k4, k5, k6]

theorem stance_kept {cfg : GenSettings K} {left right : FootPrint K} {initTime : K} {merges shifts : List Nat} {steps : List (Step K)}
    {lp rp : List Phase} {z z' : Zmp K} {o : ZmpOut K}
    (h : z.computeNewTrajectories cfg initTime dT merges left right steps lp rp shifts = .ok (z', o)) :
    z'.leftStance = z.leftStance ∧ z'.rightStance = z.rightStance ∧ z'.leftSwitch = z.leftSwitch ∧ z'.rightSwitch = z.rightSwitch := by
  unfold Zmp.computeNewTrajectories at h
  simp only [Out.bind_eq_ok] at h
  obtain ⟨_, -, _, -, _, -, _, -, _, -, _, -, h⟩ := h
  cases h
  exact ⟨rfl, rfl, rfl, rfl⟩

/-- C88: the ZMP does not jump if the offsets of the ZMP are the same in stance and in switch. -/
theorem C88_zmp_same (hpi : (0 : K) ≤ Trig.pi) (hsort : ∀ l r, SortedPtrs l r (sort l r)) (h : Merging integ sort before old new c k m q dT)
    (hL : NonNeg old.left) (hR : NonNeg old.right) (hold : NoEmptyPhase sort old (timesOf c).1 (timesOf c).2)
    (hnew : NoEmptyPhase sort new (timeOf c m) dT) (hnames : Named old.left ∧ Named old.right)
    (hdown : BothDown old m)
    (hlater : ∃ j, j < m ∧ ¬ BothDown old j) :
    ∀ p p', old.zmp = some p → new.zmp = some p' → p.state.leftSwitch = p.state.leftStance → p.state.rightSwitch = p.state.rightStance →
      ∃ o o' w w', p.result = some o ∧ p'.result = some o' ∧ o.world[m]? = some w ∧ o'.world[0]? = some w' ∧ w'.pos = w.pos := by
  intro p p' hp hp' hl hr
  obtain ⟨o, o', _, _, _, _, w, w', r1, r2, -, -, -, -, r3, r4, -, -, -, -, r5⟩ :=
    C88_zmp hpi hsort h hL hR hold hnew hnames hdown hlater p p' hp hp'
  refine ⟨o, o', w, w', r1, r2, r3, r4, r5 fun f => ?_⟩
  obtain ⟨fuel0, hg⟩ := h.generated
  obtain ⟨w1, ordered, t, hm1⟩ := call_made_by hg
  obtain ⟨p0, o1, a1, a2, a3⟩ := hm1.zmp p hp
  rw [r1] at a2
  cases a2
  rw [BothDown, hm1.outputs] at hdown
  obtain ⟨hj, -⟩ := both_down hm1.made hdown.1 hdown.2
  obtain ⟨k1, k2, k3, k4⟩ := stance_kept a3
  obtain ⟨x, y, s1, ⟨lam, -, -, s2⟩, -⟩ := C70_segment hm1.made a3 f _ _ rfl rfl m hj
  rw [s1, Option.map_some, s2]
  congr 1
  cases f
  · simp only [Bool.false_eq_true, if_false]
    rw [← k4, hr, k2]
    ext <;> simp <;> ring
  · simp only [if_true]
    rw [← k3, hl, k1]
    ext <;> simp <;> ring

/-- C88: the ZMP does not jump if the walk in execution is left in the second half of a double support between two steps that is
too short for a pause. -/
theorem C88_zmp_half (hpi : (0 : K) ≤ Trig.pi) (hsort : ∀ l r, SortedPtrs l r (sort l r)) (h : Merging integ sort before old new c k m q dT)
    (hL : NonNeg old.left) (hR : NonNeg old.right) (hold : NoEmptyPhase sort old (timesOf c).1 (timesOf c).2)
    (hnew : NoEmptyPhase sort new (timeOf c m) dT) (hnames : Named old.left ∧ Named old.right) (a b : Nat)
    (hpa : old.cfg.pauseActive = true → ((b - a : Nat) : K) * (timesOf c).2 ≤
      max (old.cfg.switchPercentage * old.cfg.maxStepTime) (old.cfg.endSwitch + old.cfg.switchPercentage * old.cfg.nominalStepTime))
    (hab : ∀ j, a ≤ j → j < b → BothDown old j)
    (hbefore : ∃ j, j + 1 = a ∧ (old.outputs.leftContact[j]? = some false ∨ old.outputs.rightContact[j]? = some false))
    (hafter : old.outputs.leftContact[b]? = some false ∨ old.outputs.rightContact[b]? = some false)
    (ham : a ≤ m) (hmb : m < b) (hhalf : b - a ≤ 2 * (m - a)) :
    ∀ p p', old.zmp = some p → new.zmp = some p' →
      ∃ o o' w w', p.result = some o ∧ p'.result = some o' ∧ o.world[m]? = some w ∧ o'.world[0]? = some w' ∧ w'.pos = w.pos := by
  intro p p' hp hp'
  obtain ⟨o, o', _, _, _, _, w, w', r1, r2, -, -, -, -, r3, r4, -, -, -, -, r5⟩ :=
    C88_zmp hpi hsort h hL hR hold hnew hnames (hab m ham hmb)
      (by
        obtain ⟨j, hj, hx⟩ := hbefore
        refine ⟨j, by omega, ?_⟩
        rintro ⟨h1, h2⟩
        rw [h1, h2] at hx
        simp at hx) p p' hp hp'
  refine ⟨o, o', w, w', r1, r2, r3, r4, r5 fun f => ?_⟩
  obtain ⟨fuel0, hg⟩ := h.generated
  have hro : Reached integ sort old := .call _ _ _ _ _ h.reached hg
  obtain ⟨w1, ordered, t, hm1⟩ := call_made_by hg
  obtain ⟨p0, o1, a1, a2, a3⟩ := hm1.zmp p hp
  rw [r1] at a2
  cases a2
  have hab' : ∀ j, a ≤ j → j < b → (contacts t.left)[j]? = some true ∧ (contacts t.right)[j]? = some true := by
    intro j h1 h2
    have := hab j h1 h2
    rwa [BothDown, hm1.outputs] at this
  rw [hm1.outputs] at hbefore hafter
  obtain ⟨k1, k2, -, -⟩ := stance_kept a3
  rw [k1, k2]
  exact local_half hro.valid hpa hm1.made (hold _ _ hm1.made) a3 hab' ham hmb hbefore hafter hhalf f

/-! ## Examples -/

section

/-- Rational stand-ins, good enough for examples that go straight ahead. -/
local instance : Trig ℚ :=
  ⟨fun _ => 1, fun _ => 0, fun q => Nat.sqrt (⌊q * 10 ^ 8⌋₊) / 10 ^ 4, fun x => 1 + x, fun _ => 0, fun _ _ => 0, 22 / 7⟩

/-- The unicycle goes straight ahead. -/
private def ahead : Integrator ℚ := fun p u t0 _ =>
  (p.ctrl, some fun t => ⟨⟨u.position.x + (t - t0) / 40, u.position.y⟩, u.angle⟩)

/-- Every generator attached, the ZMP of a foot that stands is moved forward; `r` tells where in a double support walks can be merged. -/
private def walking (r : ℚ) : Walker ℚ := (Walker.new 0).runAll [.planner (.setPlannerPeriod (1 / 2)), .planner (.setUnicycleController .direct),
  .timing (.setMergePointRatio r), .addCubic, .cubic (.setStepHeight (1 / 10)), .addMinJerk, .minJerk (.setStepHeight (1 / 10)),
  .addZmp ⟨0, 0, 0, 0, ⟨0, 0, 0⟩, true, ⟨0, 0, 0, ""⟩, ⟨0, 0, 0, ""⟩, true, []⟩, .zmp (.setStanceZMPDelta ⟨1, 0⟩ ⟨1, 0⟩),
  .addDcm, .dcm (.setOmega 1), .addHeight, .height 1 0]

/-- A walk and the one that replaces it at its merge point `k`. -/
private def mergeRun (r dT : ℚ) (k : Nat) : Option (Walker ℚ × Walker ℚ × Nat) :=
  match (walking r).call ahead 1000 insertion (.generate 0 dT 10) with
  | .done true w =>
    match w.outputs.merges[k]?, w.zmp, w.dcm with
    | some m, some z, some d =>
      match z.state.initStates[k]?, d.result.bind (fun o => o.samples[m]?) with
      | some wt, some s =>
        match (w.runAll (([] : List (Planner.Op ℚ)).map .planner ++ [.zmp (.setWeightInitialState wt), .dcm (.setDCMInitialState s.pos s.vel)])).reGenerate
            ahead 1000 insertion (timeOf (.generate 0 dT 10) m) dT 15 .plain with
        | .done true n => some (w, n, m)
        | _ => none
      | _, _ => none
    | _, _, _ => none
  | _ => none

private theorem mergeRun_merging {r dT : ℚ} {k m : Nat} {w n : Walker ℚ} (h : mergeRun r dT k = some (w, n, m)) :
    Merging ahead insertion (walking r) w n (.generate 0 dT 10) k m .plain dT := by
  unfold mergeRun at h
  split at h
  case h_2 => cases h
  rename_i w0 hw
  split at h
  case h_2 => cases h
  rename_i m0 z d hm hz hd
  split at h
  case h_2 => cases h
  rename_i wt s hwt hs
  split at h
  case h_2 => cases h
  rename_i n0 hn
  cases h
  refine ⟨Reached.runAll _ (.new 0), ⟨1000, hw⟩, hm, 1000, [], wt, s.pos, s.vel, 15, ?_, ?_, hn⟩
  · intro p hp
    rw [hz] at hp
    cases hp
    exact hwt
  · intro p o hp ho
    rw [hd] at hp
    cases hp
    rw [ho, Option.bind_some] at hs
    exact ⟨s, hs, rfl, rfl⟩

/-- Decides `NoEmptyPhase`. -/
private def full (w : Walker ℚ) (time dT : ℚ) : Bool :=
  match timeline w.cfg w.left w.right time dT (insertion w.left w.right) with
  | .ok (_, t) => decide (t.shifts.Pairwise (· < ·))
  | _ => true

private theorem full_iff {w : Walker ℚ} {time dT : ℚ} (h : full w time dT = true) : NoEmptyPhase insertion w time dT := by
  intro o t ht
  unfold full at h
  rw [ht] at h
  exact of_decide_eq_true h

/-- The conditions of C88, except on where the walk is left. -/
private def conditions (w n : Walker ℚ) (dT : ℚ) (m : Nat) : Bool :=
  w.left.steps.all (fun s => decide (0 ≤ s.impactTime)) && w.right.steps.all (fun s => decide (0 ≤ s.impactTime)) &&
  full w 0 dT && full n (timeOf (.generate 0 dT 10) m) dT &&
  w.left.steps.all (fun s => s.footName = w.left.footName) && w.right.steps.all (fun s => s.footName = w.right.footName) &&
  decide (w.outputs.leftContact[m]? = some true ∧ w.outputs.rightContact[m]? = some true)

private theorem conditions_iff {w n : Walker ℚ} {dT : ℚ} {m : Nat} (h : conditions w n dT m = true) :
    NonNeg w.left ∧ NonNeg w.right ∧ NoEmptyPhase insertion w 0 dT ∧ NoEmptyPhase insertion n (timeOf (.generate 0 dT 10) m) dT ∧
    (Named w.left ∧ Named w.right) ∧ BothDown w m := by
  unfold conditions at h
  simp only [Bool.and_eq_true, List.all_eq_true, decide_eq_true_eq] at h
  obtain ⟨⟨⟨⟨⟨⟨h1, h2⟩, h3⟩, h4⟩, h5⟩, h6⟩, h7⟩ := h
  exact ⟨h1, h2, full_iff h3, full_iff h4, ⟨h5, h6⟩, h7⟩

/-- The first walk is left in the middle of its second double support. -/
private def middleCheck : Bool :=
  match mergeRun (1 / 2) (1 / 2) 1 with
  | some (w, n, m) => conditions w n (1 / 2) m && decide (m = 13 ∧ w.outputs.leftContact[10]? = some false ∧ w.outputs.rightContact[15]? = some false) &&
    decide (4 * (1 / 2) ≤ max (w.cfg.switchPercentage * w.cfg.maxStepTime) (w.cfg.endSwitch + w.cfg.switchPercentage * w.cfg.nominalStepTime) ∧
      1 / 2 / 2 ≤ w.cfg.endSwitch ∧ w.left.footName = "left" ∧ w.right.footName = "right") &&
    [11, 12, 13, 14].all (fun j => decide (w.outputs.leftContact[j]? = some true ∧ w.outputs.rightContact[j]? = some true)) &&
    w.cubic.any (fun p => decide (0 ≤ p.state.stepHeight)) && w.minJerk.any (fun p => decide (0 ≤ p.state.stepHeight)) &&
    w.dcm.any (fun p => decide (0 < p.state.omega ∧ 0 ≤ p.state.stillness ∧ p.state.stillness < 1)) &&
    w.zmp.isSome && w.height.isSome && n.cubic.isSome && n.minJerk.isSome && n.zmp.isSome && n.dcm.isSome && n.height.isSome
  | none => false

private theorem middle_checked : middleCheck = true := by decide +kernel

/-- Non-vacuity of C88: a walk is planned again in the middle of a double support, and everything continues. -/
example : ∃ (old new : Walker ℚ) (c j z d g : _), Merging ahead insertion (walking (1 / 2)) old new (.generate 0 (1 / 2) 10) 1 13 .plain (1 / 2) ∧
    new.cubic = some c ∧ new.minJerk = some j ∧ new.zmp = some z ∧ new.dcm = some d ∧ new.height = some g ∧
    FeetContinue old.cubic new.cubic 13 ∧ FeetContinue old.minJerk new.minJerk 13 ∧
    (∃ p o o' w w', old.zmp = some p ∧ p.result = some o ∧ z.result = some o' ∧ o.world[13]? = some w ∧ o'.world[0]? = some w' ∧ w'.pos = w.pos) ∧
    (∃ p o o' a b, old.dcm = some p ∧ p.result = some o ∧ d.result = some o' ∧ o.samples[13]? = some a ∧ o'.samples[0]? = some b ∧
      b.pos = a.pos ∧ b.vel = a.vel) ∧
    ∃ p o o' a, old.height = some p ∧ p.result = some o ∧ g.result = some o' ∧ o[13]? = some a ∧ o'[0]? = some a := by
  have h := middle_checked
  unfold middleCheck at h
  split at h
  case h_2 => cases h
  rename_i w n m hm
  simp only [Bool.and_eq_true, decide_eq_true_eq, List.all_cons, List.all_nil, and_true] at h
  obtain ⟨⟨⟨⟨⟨⟨⟨⟨⟨⟨⟨⟨⟨h1, rfl, h2, h3⟩, h4, h5, n1, n2⟩, d1, d2, d3, d4⟩, c1⟩, c2⟩, c3⟩, c4⟩, c5⟩, e1⟩, e2⟩, e3⟩, e4⟩, e5⟩ := h
  obtain ⟨f1, f2, f3, f4, f5, f6⟩ := conditions_iff h1
  have hmer := mergeRun_merging hm
  obtain ⟨c, hc⟩ := Option.isSome_iff_exists.mp e1
  obtain ⟨j, hj⟩ := Option.isSome_iff_exists.mp e2
  obtain ⟨z, hz⟩ := Option.isSome_iff_exists.mp e3
  obtain ⟨d, hd⟩ := Option.isSome_iff_exists.mp e4
  obtain ⟨g, hg⟩ := Option.isSome_iff_exists.mp e5
  obtain ⟨z0, hz0⟩ := Option.isSome_iff_exists.mp c4
  obtain ⟨g0, hg0⟩ := Option.isSome_iff_exists.mp c5
  obtain ⟨d0, hd0, hd1⟩ := (Option.any_eq_true _ _).mp c3
  simp only [decide_eq_true_eq] at hd1
  have k1 := C88_feet (by decide +kernel) insertion_sorts hmer f1 f2 f3 f4 f6 (by intro j hj; obtain rfl : j = 12 := (by omega); exact d2)
    (by intro p hp; rw [hp] at c1; simpa using c1) (by intro p hp; rw [hp] at c2; simpa using c2)
  have k2 := C88_zmp_half (by decide +kernel) insertion_sorts hmer f1 f2 f3 f4 f5 11 15 (fun _ => by exact_mod_cast h4)
    (by
      intro j h1 h2
      have : j = 11 ∨ j = 12 ∨ j = 13 ∨ j = 14 := by omega
      rcases this with rfl | rfl | rfl | rfl
      exacts [d1, d2, d3, d4]) ⟨10, rfl, Or.inl h2⟩ (Or.inr h3) (by omega) (by omega) (by omega) z0 z hz0 hz
  have k3 := C88_dcm (by decide +kernel) (by decide +kernel) insertion_sorts hmer f1 f2 f4 ⟨n1, n2, f5.1, f5.2⟩
    (by intro p hp; rw [hd0] at hp; cases hp; exact ⟨hd1.1, hd1.2.1, hd1.2.2⟩) d0 d hd0 hd
  have k4 := C88_height (by decide +kernel) hmer f1 f2 f4 f6 g0 g hg0 hg
  obtain ⟨o, o', a, b, x⟩ := k2
  obtain ⟨o1, o1', a1, b1, x1⟩ := k3
  obtain ⟨o2, o2', a2, x2⟩ := k4
  exact ⟨w, n, c, j, z, d, g, hmer, hc, hj, hz, hd, hg, k1.1, k1.2, ⟨z0, o, o', a, b, hz0, x⟩, ⟨d0, o1, o1', a1, b1, hd0, x1⟩,
    ⟨g0, o2, o2', a2, hg0, x2⟩⟩

/-- Position of the left foot at a sample. -/
private def footAt (w : Walker ℚ) (j : Nat) : Option ℚ := w.cubic.bind fun p => p.result.bind fun o => o.1[j]?.map (·.pos.x)

/-- Position of the ZMP at a sample. -/
private def zmpAt (w : Walker ℚ) (j : Nat) : Option ℚ := w.zmp.bind fun p => p.result.bind fun o => o.world[j]?.map (·.pos.x)

/-- Positions of the left foot and of the ZMP where the walk is left and where the new one starts. -/
private def jump (w n : Walker ℚ) (m : Nat) (x : (ℚ × ℚ) × ℚ × ℚ) : Prop :=
  (footAt w m = some x.1.1 ∧ footAt n 0 = some x.1.2) ∧ zmpAt w m = some x.2.1 ∧ zmpAt n 0 = some x.2.2

private instance (w n : Walker ℚ) (m : Nat) (x : (ℚ × ℚ) × ℚ × ℚ) : Decidable (jump w n m x) := by unfold jump; infer_instance

private def jumpCheck (r dT : ℚ) (x : (ℚ × ℚ) × ℚ × ℚ) : Bool :=
  match mergeRun r dT 1 with
  | some (w, n, m) => conditions w n dT m && decide (jump w n m x) &&
    decide (w.outputs.leftContact[10]? = some false ∧ 10 < m)
  | none => false

private theorem jump_checked : jumpCheck 0 (9 / 20) ((11 / 80, 0), 0, 1) = true ∧ jumpCheck (1 / 4) (1 / 2) ((11 / 80, 11 / 80), 307 / 512, 523 / 512) = true := by
  constructor <;> decide +kernel

private theorem jumpCheck_iff {r dT : ℚ} {x : (ℚ × ℚ) × ℚ × ℚ} (h : jumpCheck r dT x = true) :
    ∃ (w n : Walker ℚ) (m : Nat), Merging ahead insertion (walking r) w n (.generate 0 dT 10) 1 m .plain dT ∧ NonNeg w.left ∧ NonNeg w.right ∧
      NoEmptyPhase insertion w 0 dT ∧ NoEmptyPhase insertion n (timeOf (.generate 0 dT 10) m) dT ∧ (Named w.left ∧ Named w.right) ∧
      BothDown w m ∧ (∃ j, j < m ∧ ¬ BothDown w j) ∧ jump w n m x := by
  unfold jumpCheck at h
  split at h
  case h_2 => cases h
  rename_i w n m hm
  simp only [Bool.and_eq_true, decide_eq_true_eq] at h
  obtain ⟨⟨h1, h2⟩, h3, h4⟩ := h
  obtain ⟨f1, f2, f3, f4, f5, f6⟩ := conditions_iff h1
  exact ⟨w, n, m, mergeRun_merging hm, f1, f2, f3, f4, f5, f6, ⟨10, h4, fun h => by rw [h.1] at h3; cases h3⟩, h2⟩

private theorem footAt_inv {w : Walker ℚ} {j : Nat} {x : ℚ} (h : footAt w j = some x) :
    ∃ p lo ro s, w.cubic = some p ∧ p.result = some (lo, ro) ∧ lo[j]? = some s ∧ s.pos.x = x := by
  unfold footAt at h
  simp only [Option.bind_eq_some_iff, Option.map_eq_some_iff] at h
  obtain ⟨p, h1, ⟨lo, ro⟩, h2, s, h3, h4⟩ := h
  exact ⟨p, lo, ro, s, h1, h2, h3, h4⟩

private theorem zmpAt_inv {w : Walker ℚ} {j : Nat} {x : ℚ} (h : zmpAt w j = some x) :
    ∃ p o s, w.zmp = some p ∧ p.result = some o ∧ o.world[j]? = some s ∧ s.pos.x = x := by
  unfold zmpAt at h
  simp only [Option.bind_eq_some_iff, Option.map_eq_some_iff] at h
  obtain ⟨p, h1, o, h2, s, h3, h4⟩ := h
  exact ⟨p, o, s, h1, h2, h3, h4⟩

/-- C88 (negative): a merge point may be the sample of a landing (merge point ratio 0), and the step may be due between this sample
and the next one.  The new walk then starts from the contact before the landing: the left foot jumps back from 11/80 to 0. -/
theorem C88_landing_witness : ∃ (w n : Walker ℚ) (m : Nat), Merging ahead insertion (walking 0) w n (.generate 0 (9 / 20) 10) 1 m .plain (9 / 20) ∧
    NonNeg w.left ∧ NonNeg w.right ∧ NoEmptyPhase insertion w 0 (9 / 20) ∧ NoEmptyPhase insertion n (timeOf (.generate 0 (9 / 20) 10) m) (9 / 20) ∧
    BothDown w m ∧ ∃ p p' lo ro lo' ro' s s', w.cubic = some p ∧ n.cubic = some p' ∧ p.result = some (lo, ro) ∧ p'.result = some (lo', ro') ∧
      lo[m]? = some s ∧ lo'[0]? = some s' ∧ s.pos.x = 11 / 80 ∧ s'.pos.x = 0 := by
  obtain ⟨w, n, m, h1, h2, h3, h4, h5, -, h6, -, h7⟩ := jumpCheck_iff jump_checked.1
  obtain ⟨p, lo, ro, s, a1, a2, a3, a4⟩ := footAt_inv h7.1.1
  obtain ⟨p', lo', ro', s', b1, b2, b3, b4⟩ := footAt_inv h7.1.2
  exact ⟨w, n, m, h1, h2, h3, h4, h5, h6, p, p', lo, ro, lo', ro', s, s', a1, b1, a2, b2, a3, b3, a4, b4⟩

/-- C88 (negative): in the first half of a double support the ZMP in the frame of the foot that takes off has not come back to the
stance offset, but the new walk starts there: the ZMP jumps. -/
theorem C88_zmp_witness : ∃ (w n : Walker ℚ) (m : Nat), Merging ahead insertion (walking (1 / 4)) w n (.generate 0 (1 / 2) 10) 1 m .plain (1 / 2) ∧
    NonNeg w.left ∧ NonNeg w.right ∧ NoEmptyPhase insertion w 0 (1 / 2) ∧ NoEmptyPhase insertion n (timeOf (.generate 0 (1 / 2) 10) m) (1 / 2) ∧
    (Named w.left ∧ Named w.right) ∧ BothDown w m ∧ (∃ j, j < m ∧ ¬ BothDown w j) ∧
    ∃ z z' o o' s s', w.zmp = some z ∧ n.zmp = some z' ∧ z.result = some o ∧ z'.result = some o' ∧ o.world[m]? = some s ∧
      o'.world[0]? = some s' ∧ s.pos.x = 307 / 512 ∧ s'.pos.x = 523 / 512 := by
  obtain ⟨w, n, m, h1, h2, h3, h4, h5, h6, h7, h8, h9⟩ := jumpCheck_iff jump_checked.2
  obtain ⟨p, o, s, a1, a2, a3, a4⟩ := zmpAt_inv h9.2.1
  obtain ⟨p', o', s', b1, b2, b3, b4⟩ := zmpAt_inv h9.2.2
  exact ⟨w, n, m, h1, h2, h3, h4, h5, h6, h7, h8, p, p', o, o', s, s', a1, b1, a2, b2, a3, b3, a4, b4⟩


end

end Uni.Walker
