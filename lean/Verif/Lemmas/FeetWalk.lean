import Verif.Lemmas.Feet
import Verif.Lemmas.Merges
import Verif.Props.Generator

/-! # The trajectories of the feet over a generated timeline -/

set_option autoImplicit false
set_option linter.unusedSectionVars false

namespace Uni
open Spec Gen

variable {K : Type} [Field K] [LinearOrder K] [IsStrictOrderedRing K] [FloorRing K] [Trig K]

theorem slots_count {cfg : GenSettings K} {dT t0 : K} {half first : Bool} {n : Nat} {l : List (Ptr K)} {slots : List Slot}
    {ms : List Nat} (h : Slots cfg dT t0 half first n l slots ms) (f : Bool) :
    slots.countP (fun x => x.left == f) = l.countP (fun q => q.left == f) := by
  induction h with
  | nil => rfl
  | cons first n q l s ss ms mss h1 _ _ ih => rw [List.countP_cons, List.countP_cons, ih, h1.left]

/-- Both feet generators, on a timeline without empty phases: they succeed as soon as every single swing can be interpolated. -/
theorem feet_run {swing : Step K → Step K → Nat → Out (List (FootSample K))}
    (hsw : ∀ s s' n, 0 < n → ∃ l, swing s s' n = .ok l ∧ l.length = n) {cfg : GenSettings K} {left right : FootPrint K}
    {initTime dT : K} {sorted ordered : List (Ptr K)} {t : Timing K} (hs : SortedPtrs left right sorted)
    (h : timeline cfg left right initTime dT sorted = .ok (ordered, t)) (hpos : t.shifts.Pairwise (· < ·)) (f : Bool) :
    ∃ st out, overPhases (footBody swing) (if f then t.left else t.right) t.shifts
        (if f then left.steps else right.steps) = .ok (st, out) ∧
      FootRun swing (if f then left.steps else right.steps) (if f then t.left else t.right) out := by
  obtain ⟨l, r, tt, hr⟩ := timeline_ok h
  have hp : tt.Positive := positive_of_shifts (by rw [← hr.built.shifts]; exact hpos)
  have hcount : tt.slots.countP (fun x => x.left == f) + 1 ≤ (if f then left.steps else right.steps).length := by
    have hc := hr.counts hs
    rcases hr.built.cases with ⟨h2, h3, -⟩ | ⟨-, ms, hsl, -⟩
    · rw [h3, List.countP_nil]
      cases f <;> simp <;> omega
    · rw [slots_count hsl f]
      cases f
      · exact hc.2.le
      · exact hc.1.le
  have e : (if f then t.left else t.right) = tt.phases f := by
    cases f
    · exact hr.built.right
    · exact hr.built.left
  rw [e, hr.built.shifts, overPhases_timetable _ tt f hp]
  cases hst : (if f then left.steps else right.steps) with
  | nil => rw [hst] at hcount; simp at hcount
  | cons s rest =>
    rw [hst] at hcount
    obtain ⟨st, out, h1, h2, -⟩ := footBody_slots hsw f tt.slots
      (if tt.lastLeft = f then .switchIn else .switchOut, tt.rest) (by split_ifs <;> simp) hp.2 hp.1 s rest
      (by simp only [List.length_cons] at hcount; omega) 1 0
    exact ⟨st, out, h1, h2⟩

/-- At the last sample each foot has landed on all its steps. -/
theorem landings_last {cfg : GenSettings K} {left right : FootPrint K} {initTime dT : K} {sorted ordered : List (Ptr K)}
    {t : Timing K} (hs : SortedPtrs left right sorted)
    (h : timeline cfg left right initTime dT sorted = .ok (ordered, t)) (hpos : t.shifts.Pairwise (· < ·)) (f : Bool) :
    landings (if f then t.left else t.right) (t.left.length - 1) + 1 = (if f then left.steps else right.steps).length := by
  obtain ⟨l, r, tt, hr⟩ := timeline_ok h
  have hp : tt.Positive := positive_of_shifts (by rw [← hr.built.shifts]; exact hpos)
  have hcount : tt.slots.countP (fun x => x.left == f) + 1 = (if f then left.steps else right.steps).length := by
    have hc := hr.counts hs
    rcases hr.built.cases with ⟨h2, h3, -⟩ | ⟨-, ms, hsl, -⟩
    · rw [h3, List.countP_nil]
      rw [List.drop_of_length_le (by omega)] at hc
      cases f
      · exact hc.2
      · exact hc.1
    · rw [slots_count hsl f]
      cases f
      · exact hc.2
      · exact hc.1
  have e : (if f then t.left else t.right) = tt.phases f := by
    cases f
    · exact hr.built.right
    · exact hr.built.left
  have hl : t.left.length = total (slotSegs f tt.slots) + tt.rest := by
    rw [hr.built.left, tt.length_phases, total_congr (segs_snd tt true f), segs_eq, total_append]
    simp
  have := landings_total f tt.slots (if tt.lastLeft = f then .switchIn else .switchOut, tt.rest)
    (by split_ifs <;> simp) hp.2 hp.1
  have hrest := hp.2
  rw [← hcount, e, hl, ← this]
  simp only
  rw [show total (slotSegs f tt.slots) + tt.rest - 1 = total (slotSegs f tt.slots) + (tt.rest - 1) by omega]
  rfl

end Uni
