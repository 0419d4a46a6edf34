import Verif.Lemmas.Timing

/-! # `generateFromFootPrints` up to the phase timings -/

set_option autoImplicit false
set_option linter.unusedSectionVars false

namespace Uni.Gen
open Spec
variable {K : Type} [Field K] [LinearOrder K]

/-! ## Ordering -/

theorem adjacentDup_false {l : List (Ptr K)} (h : adjacentDup l = false)
    (hs : l.Pairwise (fun a b => a.step.impactTime ≤ b.step.impactTime)) :
    l.Pairwise (fun a b => a.step.impactTime < b.step.impactTime) := by
  induction l with
  | nil => simp
  | cons a l ih =>
    cases l with
    | nil => simp
    | cons b l =>
      simp only [adjacentDup, Bool.or_eq_false_iff, decide_eq_false_iff_not] at h
      have ih := ih h.2 hs.of_cons
      rw [List.pairwise_cons] at hs ⊢
      refine ⟨fun c hc => ?_, ih⟩
      have hab := lt_of_le_of_ne (hs.1 b (by simp)) h.1
      rcases List.mem_cons.mp hc with rfl | hc
      · exact hab
      · exact hab.trans ((List.pairwise_cons.mp ih).1 c hc)

theorem adjacentDup_true {l : List (Ptr K)} (h : adjacentDup l = true) :
    ∃ (i : Nat) (a b : Ptr K), l[i]? = some a ∧ l[i + 1]? = some b ∧ a.step.impactTime = b.step.impactTime := by
  induction l with
  | nil => simp [adjacentDup] at h
  | cons a l ih =>
    cases l with
    | nil => simp [adjacentDup] at h
    | cons b l =>
      simp only [adjacentDup, Bool.or_eq_true, decide_eq_true_eq] at h
      rcases h with h | h
      · exact ⟨0, a, b, rfl, rfl, h⟩
      · obtain ⟨i, c, d, h1, h2, h3⟩ := ih h
        exact ⟨i + 1, c, d, by simpa using h1, by simpa using h2, h3⟩

/-- What `orderSteps` returns on a sorted list: the list itself, or with the first two (simultaneous) steps swapped. -/
theorem orderSteps_ok {sorted ordered : List (Ptr K)} (h : orderSteps sorted = .ok ordered)
    (hs : sorted.Pairwise (fun a b => a.step.impactTime ≤ b.step.impactTime)) :
    ordered.Perm sorted ∧ ordered.Pairwise (fun a b => a.step.impactTime ≤ b.step.impactTime) ∧
      (ordered.drop 2).Pairwise (fun a b => a.step.impactTime < b.step.impactTime) := by
  unfold orderSteps at h
  split at h
  · cases h; simp
  · cases h
  · rename_i a b rest
    split_ifs at h with h1
    have h2 := adjacentDup_false (by simpa using h1) (hs.of_cons.of_cons)
    split at h
    · cases h
      exact ⟨List.Perm.refl _, hs, by simp⟩
    · rename_i c rest
      split_ifs at h with h3
      · cases h
        refine ⟨List.Perm.swap _ _ _, ?_, h2⟩
        simp only [List.pairwise_cons, List.mem_cons, forall_eq_or_imp] at hs ⊢
        obtain ⟨⟨k1, k2, k3⟩, ⟨k4, k5⟩, k6⟩ := hs
        exact ⟨⟨h3.1.ge, k4, k5⟩, ⟨k2, k3⟩, k6⟩
      · cases h
        exact ⟨List.Perm.refl _, hs, h2⟩

theorem orderSteps_fail {sorted : List (Ptr K)} (h : orderSteps sorted = .fail) :
    ∃ (i : Nat) (a b : Ptr K), sorted[i + 2]? = some a ∧ sorted[i + 3]? = some b ∧
      a.step.impactTime = b.step.impactTime := by
  unfold orderSteps at h
  split at h
  · cases h
  · cases h
  · split_ifs at h with h1
    · exact adjacentDup_true h1
    · split at h
      · cases h
      · split_ifs at h

theorem orderSteps_ub {sorted : List (Ptr K)} {w : UB} (h : orderSteps sorted = .ub w) : sorted.length = 1 := by
  unfold orderSteps at h
  split at h
  · cases h
  · simp
  · split_ifs at h with h1
    · split at h
      · cases h
      · split_ifs at h

theorem ofFoot_length (b : Bool) (l : List (Step K)) : (Ptr.ofFoot b l).length = l.length := by simp [Ptr.ofFoot]

theorem ofFeet_length (left right : FootPrint K) : (Ptr.ofFeet left right).length = left.steps.length + right.steps.length := by
  simp [Ptr.ofFeet, ofFoot_length]

theorem mem_ofFoot {b : Bool} {l : List (Step K)} {q : Ptr K} : q ∈ Ptr.ofFoot b l ↔ q.left = b ∧ l[q.index]? = some q.step := by
  unfold Ptr.ofFoot
  simp only [List.mem_map]
  constructor
  · rintro ⟨⟨s, i⟩, h, rfl⟩
    refine ⟨rfl, ?_⟩
    simpa [List.mk_mem_zipIdx_iff_getElem?] using h
  · rintro ⟨h1, h2⟩
    refine ⟨(q.step, q.index), by simpa [List.mk_mem_zipIdx_iff_getElem?] using h2, ?_⟩
    cases q; simp at h1 ⊢; exact h1.symm

theorem mem_ofFeet {left right : FootPrint K} {q : Ptr K} :
    q ∈ Ptr.ofFeet left right ↔ (if q.left then left.steps else right.steps)[q.index]? = some q.step := by
  unfold Ptr.ofFeet
  rw [List.mem_append, mem_ofFoot, mem_ofFoot]
  cases q.left <;> simp

theorem ofFoot_nodup (b : Bool) (l : List (Step K)) : (Ptr.ofFoot b l).Nodup := by
  have : ((Ptr.ofFoot b l).map Ptr.index) = List.range l.length := by
    unfold Ptr.ofFoot
    rw [List.map_map, show (Ptr.index ∘ fun p : Step K × Nat => (⟨b, p.2, p.1⟩ : Ptr K)) = Prod.snd from rfl,
      List.zipIdx_map_snd, List.range_eq_range']
  exact List.Nodup.of_map _ (this ▸ List.nodup_range)

theorem ofFeet_nodup (left right : FootPrint K) : (Ptr.ofFeet left right).Nodup := by
  unfold Ptr.ofFeet
  refine List.Nodup.append (ofFoot_nodup _ _) (ofFoot_nodup _ _) ?_
  intro q h1 h2
  have a := (mem_ofFoot.mp h1).1
  have b := (mem_ofFoot.mp h2).1
  rw [a] at b; cases b

variable [IsStrictOrderedRing K] [FloorRing K]

/-- The result of `createPhasesTimings` in terms of the timetable it builds. -/
structure Built (cfg : GenSettings K) (initTime dT : K) (l r : Step K) (nl nr : Nat) (ordered : List (Ptr K))
    (t : Timing K) (tt : Timetable) : Prop where
  left : t.left = tt.phases true
  right : t.right = tt.phases false
  shifts : t.shifts = tt.shifts
  coherent : tt.Coherent
  rest : (tt.rest : ℤ) = stdRound (cfg.endSwitch / dT)
  cases : (ordered.length = 2 ∧ tt.slots = [] ∧ tt.lastLeft = decide (r.impactTime < l.impactTime) ∧
      t.merges = 0 :: List.range' 1 (tt.rest - 1) ∧ t.pastEnd = false) ∨
    (ordered.length ≠ 2 ∧ ∃ ms, Slots cfg dT initTime (decide (l.impactTime ≠ r.impactTime)) true 0 (ordered.drop 2) tt.slots ms ∧
      0 < total (tt.segs true) ∧ t.merges = 0 :: ms ++ [total (tt.segs true) - 1] ∧ Consumes 1 1 (ordered.drop 2) ∧
      t.pastEnd = PastEnd nl nr 1 1 (ordered.drop 2))

theorem createPhasesTimings_ok {cfg : GenSettings K} {initTime dT : K} {left right : List (Step K)}
    {ordered : List (Ptr K)} {t : Timing K} (h : createPhasesTimings cfg initTime dT left right ordered = .ok t) :
    ∃ l r tt, left.head? = some l ∧ right.head? = some r ∧
      Built cfg initTime dT l r left.length right.length ordered t tt := by
  unfold createPhasesTimings at h
  split at h
  · rename_i l ls r rs last hlast
    refine ⟨l, r, ?_⟩
    by_cases h2 : ordered.length = 2
    · rw [if_pos h2] at h
      obtain ⟨n, hn, h⟩ := Out.bind_eq_ok.mp h
      have hn := roundSize_ok hn
      cases h
      refine ⟨⟨[], decide (r.impactTime < l.impactTime), n⟩, rfl, rfl, ?_, ?_, ?_, ?_, hn, .inl ⟨h2, rfl, rfl, rfl, rfl⟩⟩
      · by_cases h : r.impactTime < l.impactTime <;> simp [Timetable.phases, Timetable.segs, h]
      · by_cases h : r.impactTime < l.impactTime <;> simp [Timetable.phases, Timetable.segs, h]
      · simp [Timetable.shifts, Timetable.segs, ends]
      · intro s hs; simp at hs
    · rw [if_neg h2] at h
      split_ifs at h with h3
      obtain ⟨s, hs, h⟩ := Out.bind_eq_ok.mp h
      obtain ⟨slots, ms, b1, b2, b3, b4, b5, b6, b7, b8⟩ := addSteps_ok (t0 := initTime) (by simp) hs
      unfold addLast at h
      obtain ⟨n, hn, h⟩ := Out.bind_eq_ok.mp h
      obtain ⟨m, hm, h⟩ := Out.bind_eq_ok.mp h
      have hn := roundSize_ok hn
      have hm := subSize_ok hm
      have hb : s.shifts.getLastD 0 = total (slotSegs true slots) := by
        rw [b4]
        by_cases hne : slotSegs true slots = []
        · rw [hne]; simp [ends]
        · have := getLastD_ends 0 0 _ hne
          simp only [List.getLastD_cons, List.getLastD_nil, List.singleton_append, Nat.zero_add] at this ⊢
          exact this
      cases h
      refine ⟨⟨slots, s.swingLeft, n⟩, rfl, rfl, ?_, ?_, ?_, ?_, hn, .inr ⟨h2, ms, b1, ?_, ?_, b7, ?_⟩⟩
      · simp only [b2, List.nil_append, Timetable.phases, Timetable.segs, expand_append, slotSegs]
        cases s.swingLeft <;> simp
      · simp only [b3, List.nil_append, Timetable.phases, Timetable.segs, expand_append, slotSegs]
        cases s.swingLeft <;> simp
      · simp only [Timetable.shifts, Timetable.segs, ends_append, ends]
        rw [hb, b4]
        simp [slotSegs]
      · intro x hx
        simp only at hx ⊢
        rw [b6, hx]; rfl
      · simp only [Timetable.segs, total_append]
        rw [hb] at hm
        simp only [slotSegs] at hm
        simp; omega
      · simp only [b5, Timetable.segs, total_append, total_cons, total_nil]
        rw [hb] at hm
        simp only [slotSegs] at hm
        simp; omega
      · rw [b8]; simp
  · cases h

/-- The settings used by `createPhasesTimings`, src/UnicycleGenerator.cpp:394. -/
def effective (cfg : GenSettings K) : GenSettings K :=
  { cfg with nominalSwitchTime := cfg.switchPercentage * cfg.nominalStepTime }

/-- Everything known of a successful run of `generateFromFootPrints` up to the timings. -/
structure Run (cfg : GenSettings K) (left right : FootPrint K) (initTime dT : K) (sorted ordered : List (Ptr K))
    (t : Timing K) (l r : Step K) (tt : Timetable) : Prop where
  headL : left.steps.head? = some l
  headR : right.steps.head? = some r
  names : left.footName ≠ right.footName
  dT_pos : 0 < dT
  init_l : l.impactTime ≤ initTime
  init_r : r.impactTime ≤ initTime
  order : orderSteps sorted = .ok ordered
  built : Built (effective cfg) initTime dT l r left.steps.length right.steps.length ordered t tt

theorem timeline_ok {cfg : GenSettings K} {left right : FootPrint K} {initTime dT : K} {sorted ordered : List (Ptr K)}
    {t : Timing K} (h : timeline cfg left right initTime dT sorted = .ok (ordered, t)) :
    ∃ l r tt, Run cfg left right initTime dT sorted ordered t l r tt := by
  unfold timeline at h
  split at h
  · rename_i l ls r rs hl hr
    split_ifs at h with h1 h2 h3
    obtain ⟨o, ho, h⟩ := Out.bind_eq_ok.mp h
    obtain ⟨t', ht, h⟩ := Out.bind_eq_ok.mp h
    cases h
    obtain ⟨l', r', tt, e1, e2, hb⟩ := createPhasesTimings_ok ht
    rw [hl] at e1; rw [hr] at e2
    cases e1; cases e2
    have h3 := not_lt.mp h3
    refine ⟨l, r, tt, by rw [hl]; rfl, by rw [hr]; rfl, h1, not_le.mp h2, (le_max_left _ _).trans h3, (le_max_right _ _).trans h3, ho, ?_⟩
    exact hb
  · cases h

end Uni.Gen
