import Verif.Lemmas.Segs
import Verif.Lemmas.Round
import Verif.Model.Generator

/-! # `createPhasesTimings` builds a timetable -/

set_option autoImplicit false
set_option linter.unusedSectionVars false

namespace Uni.Gen
open Spec
variable {K : Type} [Field K] [LinearOrder K] [IsStrictOrderedRing K] [FloorRing K]

/-- The slot made for a planned step; `prev` is the instant at which the previous one ended. -/
structure SlotOf (cfg : GenSettings K) (dT : K) (half : Bool) (prev : K) (q : Ptr K) (s : Slot) : Prop where
  left : s.left = q.left
  nonneg : 0 ≤ q.step.impactTime - prev
  all : ((s.ds + s.ss : Nat) : ℤ) = stdRound ((q.step.impactTime - prev) / dT)
  double : (s.ds : ℤ) = stdRound (switchTime cfg half (q.step.impactTime - prev) / dT)

/-- The merge points added for a step whose double support starts at `n` and lasts `ds` samples. -/
def MergesOf (cfg : GenSettings K) (dT sw : K) (n ds : Nat) (ms : List Nat) : Prop :=
  ∃ i f : Nat, (i : ℤ) = n + ds - stdRound (sw * (1 - cfg.mergeBegin) / dT) ∧
    (f : ℤ) = n + ds - stdRound (sw * (1 - cfg.mergeEnd) / dT) ∧ ms = List.range' i (f + 1 - i)

/-- Slots and merge points of the remaining steps, the first of them starting at sample `n`. -/
inductive Slots (cfg : GenSettings K) (dT t0 : K) (half : Bool) : Bool → Nat → List (Ptr K) → List Slot → List Nat → Prop
  | nil (first : Bool) (n : Nat) : Slots cfg dT t0 half first n [] [] []
  | cons (first : Bool) (n : Nat) (q : Ptr K) (l : List (Ptr K)) (s : Slot) (ss : List Slot) (ms mss : List Nat) :
      SlotOf cfg dT (first && half) (t0 + n * dT) q s →
      (if first then ms = [] else
        MergesOf cfg dT (switchTime cfg (first && half) (q.step.impactTime - (t0 + n * dT))) n s.ds ms) →
      Slots cfg dT t0 half false (n + s.ds + s.ss) l ss mss →
      Slots cfg dT t0 half first n (q :: l) (s :: ss) (ms ++ mss)

theorem stepMerges_ok {cfg : GenSettings K} {dT sw : K} {n ds : Nat} {ms : List Nat}
    (h : stepMerges cfg dT false sw (n + ds) = .ok ms) : MergesOf cfg dT sw n ds ms := by
  unfold stepMerges at h
  rw [if_neg (by simp)] at h
  obtain ⟨a, ha, h⟩ := Out.bind_eq_ok.mp h
  obtain ⟨i, hi, h⟩ := Out.bind_eq_ok.mp h
  obtain ⟨b, hb, h⟩ := Out.bind_eq_ok.mp h
  obtain ⟨f, hf, h⟩ := Out.bind_eq_ok.mp h
  cases h
  have ha := roundSize_ok ha
  have hb := roundSize_ok hb
  have hi := subSize_ok hi
  have hf := subSize_ok hf
  exact ⟨i, f, by omega, by omega, rfl⟩

/-- What one iteration does. -/
theorem addStep_ok {cfg : GenSettings K} {dT : K} {nl nr : Nat} {first half : Bool} {q : Ptr K} {s s' : Timing K}
    (h : addStep cfg dT nl nr first half q s = .ok s') :
    ∃ slot ms, SlotOf cfg dT half s.prevTime q slot ∧
      (if first then ms = [] else
        MergesOf cfg dT (switchTime cfg half (q.step.impactTime - s.prevTime)) (s.shifts.getLastD 0) slot.ds ms) ∧
      s'.left = s.left ++ expand (slot.segs true) ∧ s'.right = s.right ++ expand (slot.segs false) ∧
      s'.shifts = s.shifts ++ ends (s.shifts.getLastD 0) (slot.segs true) ∧ s'.merges = s.merges ++ ms ∧
      s'.prevTime = s.prevTime + ((slot.ds + slot.ss : Nat) : K) * dT ∧ s'.swingLeft = slot.left ∧
      q.index = (if q.left then s.leftIndex else s.rightIndex) ∧
      s'.leftIndex = (if q.left then s.leftIndex + 1 else s.leftIndex) ∧
      s'.rightIndex = (if q.left then s.rightIndex else s.rightIndex + 1) ∧
      s'.pastEnd = (s.pastEnd || decide (nl ≤ s.leftIndex) || (!q.left && decide (nr ≤ s.rightIndex))) := by
  unfold addStep at h
  simp only at h
  by_cases h0 : q.step.impactTime - s.prevTime < 0
  · rw [if_pos h0] at h; cases h
  · rw [if_neg h0] at h
    obtain ⟨a, ha, h⟩ := Out.bind_eq_ok.mp h
    obtain ⟨b, hb, h⟩ := Out.bind_eq_ok.mp h
    obtain ⟨c, hc, h⟩ := Out.bind_eq_ok.mp h
    obtain ⟨w, hw, h⟩ := Out.bind_eq_ok.mp h
    obtain ⟨ms, hm, h⟩ := Out.bind_eq_ok.mp h
    have ha := roundSize_ok ha
    have hb := roundSize_ok hb
    have hc := subSize_ok hc
    have hw' : w = q.left ∧ q.index = (if q.left then s.leftIndex else s.rightIndex) := by
      unfold whichSwings at hw
      split_ifs at hw with h1 h2
      · cases hw; simp [h1.1, h1.2]
      · cases hw; simp [h2.1, h2.2]
    obtain ⟨rfl, hidx⟩ := hw'
    have hcb : b + c = a := by omega
    refine ⟨⟨q.left, b, c⟩, ms, ⟨rfl, not_lt.mp h0, by rw [← ha, hcb], hb⟩, ?_, ?_⟩
    · cases first with
      | true => simp [stepMerges] at hm; simp [hm]
      | false => simp only [Bool.false_eq_true, if_false]; exact stepMerges_ok hm
    · cases h
      refine ⟨?_, ?_, ?_, rfl, by simp only [hcb], rfl, hidx, ?_, ?_, ?_⟩
      · cases q.left <;> simp [Slot.segs]
      · cases q.left <;> simp [Slot.segs]
      · cases q.left <;> simp [Slot.segs, ends, Nat.add_assoc]
      · cases q.left <;> simp
      · cases q.left <;> simp
      · cases hq : q.left with
        | true => rw [hq, if_pos rfl] at hidx; simp [hidx]
        | false => simp

/-- Runs of all slots. -/
def slotSegs (foot : Bool) (l : List Slot) : List Seg := l.flatMap (Slot.segs foot)

/-- Left steps are consumed in the order of the footprint, and so are the right ones. -/
def Consumes : Nat → Nat → List (Ptr K) → Prop
  | _, _, [] => True
  | i, j, q :: l => q.index = (if q.left then i else j) ∧
      Consumes (if q.left then i + 1 else i) (if q.left then j else j + 1) l

/-- `pastEnd` after the steps `l`. -/
def PastEnd (nl nr : Nat) : Nat → Nat → List (Ptr K) → Bool
  | _, _, [] => false
  | i, j, q :: l => decide (nl ≤ i) || (!q.left && decide (nr ≤ j)) ||
      PastEnd nl nr (if q.left then i + 1 else i) (if q.left then j else j + 1) l

theorem total_segs (s : Slot) (f : Bool) : total (s.segs f) = s.ds + s.ss := by
  unfold Slot.segs; split_ifs <;> simp

theorem addSteps_ok {cfg : GenSettings K} {dT t0 : K} {nl nr : Nat} {first half : Bool} {l : List (Ptr K)} {s s' : Timing K}
    (hp : s.prevTime = t0 + ((s.shifts.getLastD 0 : Nat) : K) * dT)
    (h : addSteps cfg dT nl nr first half l s = .ok s') :
    ∃ slots ms, Slots cfg dT t0 half first (s.shifts.getLastD 0) l slots ms ∧
      s'.left = s.left ++ expand (slotSegs true slots) ∧ s'.right = s.right ++ expand (slotSegs false slots) ∧
      s'.shifts = s.shifts ++ ends (s.shifts.getLastD 0) (slotSegs true slots) ∧ s'.merges = s.merges ++ ms ∧
      s'.swingLeft = ((slots.getLast?.map Slot.left).getD s.swingLeft) ∧ Consumes s.leftIndex s.rightIndex l ∧
      s'.pastEnd = (s.pastEnd || PastEnd nl nr s.leftIndex s.rightIndex l) := by
  induction l generalizing first s with
  | nil =>
    simp only [addSteps, Out.ok.injEq] at h
    subst h
    exact ⟨[], [], .nil _ _, by simp [slotSegs], by simp [slotSegs], by simp [slotSegs, ends], by simp, by simp, trivial,
      by simp [PastEnd]⟩
  | cons q l ih =>
    obtain ⟨s1, h1, h2⟩ := Out.bind_eq_ok.mp h
    obtain ⟨slot, ms, a1, a2, a3, a4, a5, a6, a7, a8, a9, a10, a11, a12⟩ := addStep_ok h1
    have hlast : s1.shifts.getLastD 0 = s.shifts.getLastD 0 + slot.ds + slot.ss := by
      have hne : slot.segs true ≠ [] := by unfold Slot.segs; split_ifs <;> simp
      rw [a5]
      have : (ends (s.shifts.getLastD 0) (slot.segs true)) ≠ [] := by
        intro hc; apply hne; rw [← List.length_eq_zero_iff, ← length_ends (s.shifts.getLastD 0), hc]; rfl
      have e : (s.shifts ++ ends (s.shifts.getLastD 0) (slot.segs true)).getLastD 0 =
          (ends (s.shifts.getLastD 0) (slot.segs true)).getLastD 0 := by
        generalize ends (s.shifts.getLastD 0) (slot.segs true) = e at this
        rw [List.getLastD_eq_getLast?, List.getLastD_eq_getLast?, List.getLast?_append_of_ne_nil _ this]
      rw [e, getLastD_ends _ _ _ hne, total_segs, Nat.add_assoc]
    have hp1 : s1.prevTime = t0 + ((s1.shifts.getLastD 0 : Nat) : K) * dT := by
      rw [a7, hlast, hp]; push_cast; ring
    obtain ⟨slots, mss, b1, b2, b3, b4, b5, b6, b7, b8⟩ := ih hp1 h2
    rw [hlast] at b1
    refine ⟨slot :: slots, ms ++ mss, ?_, ?_, ?_, ?_, ?_, ?_, ?_, ?_⟩
    · exact .cons _ _ _ _ _ _ _ _ (hp ▸ a1) (hp ▸ a2) b1
    · rw [b2, a3]; simp [slotSegs]
    · rw [b3, a4]; simp [slotSegs]
    · rw [b4, hlast, a5]; simp [slotSegs, ends_append, total_segs, Nat.add_assoc]
    · rw [b5, a6, List.append_assoc]
    · rw [b6, a8]
      cases slots with
      | nil => simp
      | cons b l =>
        rw [List.getLast?_cons_cons]
        cases hb : (b :: l).getLast? with
        | none => simp at hb
        | some x => simp
    · refine ⟨a9, ?_⟩
      rw [← a10, ← a11]; exact b7
    · rw [b8, a12, a10, a11]
      simp [PastEnd, Bool.or_assoc]

end Uni.Gen
