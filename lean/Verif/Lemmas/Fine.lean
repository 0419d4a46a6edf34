import Verif.Lemmas.Accept
import Verif.Lemmas.Loop
import Verif.Spec.Fine

/-! # Finely sampled walks have no empty phase -/

set_option autoImplicit false
set_option linter.unusedSectionVars false

namespace Uni
open Spec
variable {K : Type} [Field K] [LinearOrder K] [IsStrictOrderedRing K] [FloorRing K]

theorem stdRound_succ_le {x y : K} (hx : 0 ≤ x) (h : x + 1 ≤ y) : stdRound x + 1 ≤ stdRound y := by
  unfold stdRound
  rw [if_pos hx, if_pos (by linarith), ← Int.floor_add_one]
  exact Int.floor_le_floor (by linarith)

theorem positive_shifts {t : Timetable} (h : t.Positive) : t.shifts.Pairwise (· < ·) := by
  have key : ∀ (l : List Seg) (n : Nat), (∀ g ∈ l, 0 < g.2) → (n :: ends n l).Pairwise (· < ·) := by
    intro l
    induction l with
    | nil => intro n _; simp [ends]
    | cons g l ih =>
      intro n hg
      have h1 := ih (n + g.2) (fun x hx => hg x (by simp [hx]))
      have h2 := hg g (by simp)
      rw [show ends n (g :: l) = (n + g.2) :: ends (n + g.2) l from rfl, List.pairwise_cons]
      refine ⟨fun b hb => ?_, h1⟩
      rw [List.pairwise_cons] at h1
      rcases List.mem_cons.mp hb with rfl | hb
      · omega
      · have := h1.1 b hb; omega
  refine key _ 0 ?_
  intro g hg
  unfold Timetable.segs at hg
  rw [List.mem_append, List.mem_flatMap, List.mem_singleton] at hg
  rcases hg with ⟨s, hs, hg⟩ | rfl
  · have := h.1 s hs
    unfold Slot.segs at hg
    split_ifs at hg <;> simp at hg <;> rcases hg with rfl | rfl <;> simp [this]
  · exact h.2

namespace Gen

theorem switchTime_room {cfg : GenSettings K} (hv : ValidTimings cfg) {half : Bool} {T : K} (hT : 0 ≤ T) :
    cfg.switchPercentage / 2 * T ≤ switchTime (effective cfg) half T ∧
    ((1 - cfg.switchPercentage) * T ≤ T - switchTime (effective cfg) half T ∨
      (cfg.pauseActive = true ∧ (1 - cfg.switchPercentage) * cfg.nominalStepTime ≤ T - switchTime (effective cfg) half T)) := by
  have p0 := hv.switch_pos
  have p1 := hv.switch_lt
  have n0 := hv.nominal_pos
  have n1 := hv.nominal_le
  unfold switchTime effective
  simp only
  split_ifs with h1 h2
  · have hd : 0 < 1 - cfg.switchPercentage / 2 := by linarith
    have e : cfg.switchPercentage / (1 - cfg.switchPercentage / 2) * T / 2 = cfg.switchPercentage / 2 * T / (1 - cfg.switchPercentage / 2) := by
      field_simp
    have hn : 0 ≤ cfg.switchPercentage / 2 * T := by positivity
    rw [e]
    refine ⟨?_, Or.inl ?_⟩
    · rw [le_div_iff₀ hd]; nlinarith
    · have : cfg.switchPercentage / 2 * T / (1 - cfg.switchPercentage / 2) ≤ cfg.switchPercentage * T := by
        rw [div_le_iff₀ hd]; nlinarith
      linarith
  · refine ⟨by nlinarith, Or.inr ⟨h2.1, by linarith⟩⟩
  · exact ⟨by nlinarith, Or.inl (by linarith)⟩

theorem slot_positive {cfg : GenSettings K} (hv : ValidTimings cfg) {dT gap : K} (hd : 0 < dT) (hf : FineFor cfg gap dT) {half : Bool} {prev : K}
    {q : Ptr K} {s : Slot} (h : SlotOf (effective cfg) dT half prev q s) (hT : gap - dT / 2 ≤ q.step.impactTime - prev) :
    0 < s.ds ∧ 0 < s.ss := by
  obtain ⟨b1, b2⟩ := switchTime_room hv (half := half) h.nonneg
  have p0 := hv.switch_pos
  have p1 := hv.switch_lt
  have e1 := h.double
  have e2 := h.all
  generalize switchTime (effective cfg) half (q.step.impactTime - prev) = sw at *
  generalize q.step.impactTime - prev = T at *
  have hsw : dT / 2 ≤ sw := by
    have := hf.double
    nlinarith
  have hss : dT ≤ T - sw := by
    rcases b2 with b2 | ⟨k, b2⟩
    · have := hf.single
      nlinarith
    · exact (hf.pause k).trans b2
  have k1 : 1 ≤ stdRound (sw / dT) := stdRound_pos (by rw [le_div_iff₀ hd]; linarith)
  have k2 : stdRound (sw / dT) + 1 ≤ stdRound (T / dT) :=
    stdRound_succ_le (div_nonneg (by linarith) hd.le) (by rw [← sub_nonneg]; field_simp; linarith)
  constructor <;> omega

/-- No phase is empty. -/
theorem shifts_increasing {cfg : GenSettings K} (hv : ValidTimings cfg) {left right : FootPrint K} {initTime dT gap : K}
    {sorted ordered : List (Ptr K)} {t : Timing K} (hg : 0 < gap) (hf : FineFor cfg gap dT)
    (hw : WellSpaced gap initTime left.steps right.steps) (hs : SortedPtrs left right sorted)
    (hfirst : ∀ s ∈ left.steps.tail ++ right.steps.tail, initTime + gap ≤ s.impactTime)
    (h : timeline cfg left right initTime dT sorted = .ok (ordered, t)) : t.shifts.Pairwise (· < ·) := by
  obtain ⟨l, r, tt, hr⟩ := timeline_ok h
  have hd := hr.dT_pos
  obtain ⟨hperm, hsort, -⟩ := orderSteps_ok hr.order hs.2
  have hpo := hperm.trans hs.1
  obtain ⟨ls, hl⟩ : ∃ ls, left.steps = l :: ls := by
    have := hr.headL
    cases e : left.steps with
    | nil => rw [e] at this; simp at this
    | cons a ls => rw [e] at this; simp at this; exact ⟨ls, by rw [this]⟩
  obtain ⟨rs, hrr⟩ : ∃ rs, right.steps = r :: rs := by
    have := hr.headR
    cases e : right.steps with
    | nil => rw [e] at this; simp at this
    | cons a ls => rw [e] at this; simp at this; exact ⟨ls, by rw [this]⟩
  rw [hr.built.shifts]
  refine positive_shifts ⟨?_, ?_⟩
  · rcases hr.built.cases with ⟨-, h3, -⟩ | ⟨-, ms, hsl, -⟩
    · rw [h3]; simp
    · obtain ⟨hlen, hget⟩ := hsl.get
      have hsp := drop_two_spaced hl hrr hr.init_l hr.init_r hg hw hpo hsort
      rw [List.pairwise_iff_getElem] at hsp
      intro s hsm
      obtain ⟨k, hk, ek⟩ := List.getElem_of_mem hsm
      have hk' : k < (ordered.drop 2).length := by rw [hlen]; exact hk
      obtain ⟨s', q1, q2⟩ := hget k _ (List.getElem?_eq_getElem hk')
      rw [List.getElem?_eq_getElem hk, ek] at q1
      cases q1
      refine slot_positive hv hd hf q2 ?_
      cases k with
      | zero =>
        have hm := (drop_two hl hrr hr.init_l hr.init_r hw hpo hsort _).mp (List.getElem_mem hk')
        obtain ⟨hq, hi⟩ := hm
        rw [mem_ofFeet] at hq
        have : initTime + gap ≤ ((ordered.drop 2)[0]).step.impactTime := by
          apply hfirst
          generalize (ordered.drop 2)[0] = q at hq hi
          rw [hl, hrr] at hq ⊢
          obtain ⟨n, hn⟩ : ∃ n, q.index = n + 1 := ⟨q.index - 1, by omega⟩
          rw [hn] at hq
          cases hb : q.left <;> simp [hb] at hq <;> simp [List.mem_of_getElem? hq]
        have e : slotStart tt.slots 0 = 0 := by simp [slotStart, slotSegs, total]
        rw [e, Nat.add_zero, Nat.cast_zero, zero_mul, add_zero]
        linarith
      | succ k =>
        have hk0 : k < (ordered.drop 2).length := by omega
        obtain ⟨s0, a1, a2⟩ := hget k _ (List.getElem?_eq_getElem hk0)
        have hdrift := abs_le.mp (a2.drift hd)
        have := hsp k (k + 1) hk0 hk' (by omega)
        have e := slotStart_succ tt.slots k s0 a1
        have e2 : initTime + ((0 + slotStart tt.slots (k + 1) : Nat) : K) * dT =
            initTime + ((0 + slotStart tt.slots k : Nat) : K) * dT + ((s0.ds + s0.ss : Nat) : K) * dT := by
          rw [e]; push_cast; ring
        rw [e2]
        linarith [hdrift.2]
  · have : 1 ≤ stdRound ((effective cfg).endSwitch / dT) := stdRound_pos (by
      rw [le_div_iff₀ hd]; show 1 / 2 * dT ≤ cfg.endSwitch; linarith [hf.last])
    have := hr.built.rest
    omega

end Gen
end Uni
