import Verif.Lemmas.TimingSafe

/-! # Well spaced steps are accepted by the timings -/

set_option autoImplicit false
set_option linter.unusedSectionVars false

namespace Uni.Gen
open Spec
variable {K : Type} [Field K] [LinearOrder K] [IsStrictOrderedRing K] [FloorRing K]

/-- In a list sorted by time, the elements not after `t0` are the first ones. -/
theorem sorted_getElem {t0 : K} {l : List (Ptr K)} (hs : l.Pairwise (fun a b => a.step.impactTime ≤ b.step.impactTime))
    {i : Nat} {a : Ptr K} (h : l[i]? = some a) :
    a.step.impactTime ≤ t0 ↔ i < l.countP (fun q => decide (q.step.impactTime ≤ t0)) := by
  induction l generalizing i with
  | nil => simp at h
  | cons b l ih =>
    rw [List.pairwise_cons] at hs
    rw [List.countP_cons]
    cases i with
    | zero =>
      simp only [List.getElem?_cons_zero, Option.some.injEq] at h
      subst h
      constructor
      · intro h; simp [h]
      · intro h
        by_contra hc
        have : l.countP (fun q => decide (q.step.impactTime ≤ t0)) = 0 := by
          rw [List.countP_eq_zero]
          intro q hq
          have := hs.1 q hq
          simp only [decide_eq_true_eq, not_le]
          linarith [not_le.mp hc]
        rw [this] at h
        simp [hc] at h
    | succ i =>
      simp only [List.getElem?_cons_succ] at h
      rw [ih hs.2 h]
      by_cases hb : b.step.impactTime ≤ t0
      · simp [hb]
      · have : l.countP (fun q => decide (q.step.impactTime ≤ t0)) = 0 := by
          rw [List.countP_eq_zero]
          intro q hq
          have := hs.1 q hq
          simp only [decide_eq_true_eq, not_le]
          linarith [not_le.mp hb]
        rw [this]; simp [hb]

theorem consumes_of {i j : Nat} {l : List (Ptr K)} {n m : Nat}
    (h1 : (l.filter (fun q => q.left)).map Ptr.index = List.range' i n)
    (h2 : (l.filter (fun q => !q.left)).map Ptr.index = List.range' j m) : Consumes i j l := by
  induction l generalizing i j n m with
  | nil => trivial
  | cons q l ih =>
    cases hq : q.left with
    | true =>
      simp only [List.filter_cons, hq, Bool.not_true, Bool.false_eq_true, if_true, if_false, List.map_cons] at h1 h2
      cases n with
      | zero => simp at h1
      | succ n =>
        rw [List.range'_succ, List.cons.injEq] at h1
        refine ⟨by simp [hq, h1.1], ?_⟩
        simp only [hq, if_true]
        exact ih h1.2 h2
    | false =>
      simp only [List.filter_cons, hq, Bool.not_false, Bool.false_eq_true, if_true, if_false, List.map_cons] at h1 h2
      cases m with
      | zero => simp at h2
      | succ n =>
        rw [List.range'_succ, List.cons.injEq] at h2
        refine ⟨by simp [hq, h2.1], ?_⟩
        simp only [hq, Bool.false_eq_true, if_false]
        exact ih h1 h2.2

theorem addStep_not_fail {cfg : GenSettings K} {dT : K} {nl nr : Nat} {first half : Bool} {q : Ptr K} {s : Timing K}
    (h0 : s.prevTime ≤ q.step.impactTime) (hi : q.index = if q.left then s.leftIndex else s.rightIndex) :
    addStep cfg dT nl nr first half q s ≠ .fail := by
  intro h
  unfold addStep at h
  simp only at h
  rw [if_neg (by linarith)] at h
  have hw : whichSwings q s.leftIndex s.rightIndex = .ok q.left := by
    unfold whichSwings
    cases hq : q.left <;> rw [hq] at hi <;> simp [hi]
  rw [hw] at h
  cases h1 : roundSize ((q.step.impactTime - s.prevTime) / dT) with
  | fail => exact roundSize_not_fail h1
  | ub w => rw [h1] at h; simp at h
  | ok a =>
  cases h2 : roundSize (switchTime cfg half (q.step.impactTime - s.prevTime) / dT) with
  | fail => exact roundSize_not_fail h2
  | ub w => rw [h1, h2] at h; simp at h
  | ok b =>
  rw [h1, h2] at h
  simp only [Out.bind_ok] at h
  cases h3 : subSize a b with
  | fail => exact subSize_not_fail h3
  | ub w => rw [h3] at h; simp at h
  | ok c =>
  rw [h3] at h
  simp only [Out.bind_ok] at h
  unfold stepMerges at h
  cases first with
  | true => simp at h
  | false =>
    simp only [Bool.false_eq_true, if_false] at h
    cases h4 : roundSize (switchTime cfg half (q.step.impactTime - s.prevTime) * (1 - cfg.mergeBegin) / dT) with
    | fail => exact roundSize_not_fail h4
    | ub w => rw [h4] at h; simp at h
    | ok d =>
    cases h6 : roundSize (switchTime cfg half (q.step.impactTime - s.prevTime) * (1 - cfg.mergeEnd) / dT) with
    | fail => exact roundSize_not_fail h6
    | ub w =>
      rw [h4, h6] at h
      simp only [Out.bind_ok] at h
      cases h5 : subSize (s.shifts.getLastD 0 + b) d <;> rw [h5] at h <;> simp at h
      exact subSize_not_fail h5
    | ok e =>
      rw [h4, h6] at h
      simp only [Out.bind_ok] at h
      cases h5 : subSize (s.shifts.getLastD 0 + b) d with
      | fail => exact subSize_not_fail h5
      | ub w => rw [h5] at h; simp at h
      | ok i =>
        rw [h5] at h
        simp only [Out.bind_ok] at h
        cases h7 : subSize (s.shifts.getLastD 0 + b) e with
        | fail => exact subSize_not_fail h7
        | ub w => rw [h7] at h; simp at h
        | ok i => rw [h7] at h; simp at h

theorem addSteps_not_fail {cfg : GenSettings K} {dT : K} (hd : 0 < dT) {nl nr : Nat} {first half : Bool} {l : List (Ptr K)}
    {s : Timing K} (h0 : ∀ q ∈ l, s.prevTime ≤ q.step.impactTime)
    (hg : l.Pairwise (fun a b => a.step.impactTime + dT / 2 ≤ b.step.impactTime))
    (hc : Consumes s.leftIndex s.rightIndex l) : addSteps cfg dT nl nr first half l s ≠ .fail := by
  induction l generalizing first s with
  | nil => simp [addSteps]
  | cons q l ih =>
    unfold addSteps
    rw [List.pairwise_cons] at hg
    cases h : addStep cfg dT nl nr first (first && half) q s with
    | fail => exact absurd h (addStep_not_fail (h0 q (by simp)) hc.1)
    | ub w => simp
    | ok s' =>
      obtain ⟨slot, ms, hs, -, -, -, -, -, hp, -, -, hl, hr, -⟩ := addStep_ok h
      refine ih (fun b hb => ?_) hg.2 ?_
      · have hb' := hg.1 b hb
        have ha : ((slot.ds + slot.ss : Nat) : K) = (stdRound ((q.step.impactTime - s.prevTime) / dT) : K) := by
          rw [← hs.all]; simp
        have hr := (stdRound_bounds ((q.step.impactTime - s.prevTime) / dT)).1
        rw [hp, ha]
        have := mul_le_mul_of_nonneg_right hr hd.le
        rw [add_mul, div_mul_cancel₀ _ hd.ne'] at this
        linarith
      · rw [hl, hr]; exact hc.2

/-- The time of the later of two steps of the same foot. -/
theorem spaced_of_lt {gap : K} (hg : 0 ≤ gap) {l : List (Step K)} (h : l.Pairwise (fun a b => a.impactTime + gap ≤ b.impactTime))
    {i j : Nat} {a b : Step K} (ha : l[i]? = some a) (hb : l[j]? = some b) (hlt : a.impactTime < b.impactTime) :
    a.impactTime + gap ≤ b.impactTime := by
  rw [List.pairwise_iff_getElem] at h
  obtain ⟨hi, rfl⟩ := List.getElem?_eq_some_iff.mp ha
  obtain ⟨hj, rfl⟩ := List.getElem?_eq_some_iff.mp hb
  rcases lt_trichotomy i j with hij | hij | hij
  · exact h i j hi hj hij
  · subst hij; exact absurd hlt (lt_irrefl _)
  · have := h j i hj hi hij
    linarith

section
variable {left right : FootPrint K} {initTime dT : K} {l r : Step K} {ls rs : List (Step K)}

theorem countP_heads (hl : left.steps = l :: ls) (hr : right.steps = r :: rs) (h1 : l.impactTime ≤ initTime)
    (h2 : r.impactTime ≤ initTime) {gap : K} (hw : WellSpaced gap initTime left.steps right.steps) :
    (Ptr.ofFeet left right).countP (fun q => decide (q.step.impactTime ≤ initTime)) = 2 := by
  have key : ∀ (b : Bool) (s : Step K) (ss : List (Step K)), s.impactTime ≤ initTime → (∀ x ∈ ss, initTime < x.impactTime) →
      (Ptr.ofFoot b (s :: ss)).countP (fun q => decide (q.step.impactTime ≤ initTime)) = 1 := by
    intro b s ss h1 h2
    unfold Ptr.ofFoot
    rw [List.countP_map]
    simp only [List.zipIdx_cons, List.countP_cons, Function.comp, h1, decide_true, if_true]
    rw [List.countP_eq_zero.mpr]
    rintro ⟨x, i⟩ hx
    have : x ∈ ss := by
      have := List.mem_map_of_mem (f := Prod.fst) hx
      simpa using this
    simpa using h2 x this
  unfold Ptr.ofFeet
  have hw := hw.after
  rw [hl, hr] at hw
  simp only [List.tail_cons] at hw
  rw [List.countP_append, hl, hr, key _ _ _ h1 (fun x hx => hw x (by simp [hx])), key _ _ _ h2 (fun x hx => hw x (by simp [hx]))]

/-- After the first two, the steps are those of the tails. -/
theorem drop_two {o : List (Ptr K)} (hl : left.steps = l :: ls) (hr : right.steps = r :: rs) (h1 : l.impactTime ≤ initTime)
    (h2 : r.impactTime ≤ initTime) {gap : K} (hw : WellSpaced gap initTime left.steps right.steps)
    (hp : o.Perm (Ptr.ofFeet left right)) (hs : o.Pairwise (fun a b => a.step.impactTime ≤ b.step.impactTime)) (q : Ptr K) :
    q ∈ o.drop 2 ↔ q ∈ Ptr.ofFeet left right ∧ 0 < q.index := by
  have hcount : o.countP (fun q => decide (q.step.impactTime ≤ initTime)) = 2 := by
    rw [hp.countP_eq, countP_heads hl hr h1 h2 hw]
  have key : q ∈ Ptr.ofFeet left right → (0 < q.index ↔ initTime < q.step.impactTime) := by
    intro hq
    rw [mem_ofFeet] at hq
    have hw := hw.after
    rw [hl, hr] at hw hq
    simp only [List.tail_cons] at hw
    cases hi : q.index with
    | zero =>
      rw [hi] at hq
      cases hb : q.left <;> simp [hb] at hq <;> rw [← hq] <;> simp [h1, h2]
    | succ n =>
      rw [hi] at hq
      simp only [Nat.zero_lt_succ, true_iff]
      apply hw
      cases hb : q.left <;> simp [hb] at hq <;> simp [List.mem_of_getElem? hq]
  constructor
  · intro h
    have hq := hp.mem_iff.mp (List.mem_of_mem_drop h)
    refine ⟨hq, (key hq).mpr ?_⟩
    obtain ⟨i, hi⟩ := List.getElem?_of_mem h
    rw [List.getElem?_drop] at hi
    have := (sorted_getElem (t0 := initTime) hs hi).not
    rw [hcount] at this
    exact not_le.mp (this.mpr (by omega))
  · rintro ⟨hq, hi⟩
    have ht := (key hq).mp hi
    obtain ⟨i, hi⟩ := List.getElem?_of_mem (hp.mem_iff.mpr hq)
    have := (sorted_getElem (t0 := initTime) hs hi).not
    rw [hcount] at this
    have := this.mp (not_le.mpr ht)
    rw [show i = 2 + (i - 2) by omega, ← List.getElem?_drop] at hi
    exact List.mem_of_getElem? hi

/-- Later steps are separated by the gap. -/
theorem drop_two_spaced {o : List (Ptr K)} (hl : left.steps = l :: ls) (hr : right.steps = r :: rs) (h1 : l.impactTime ≤ initTime)
    (h2 : r.impactTime ≤ initTime) {gap : K} (hg : 0 < gap) (hw : WellSpaced gap initTime left.steps right.steps)
    (hp : o.Perm (Ptr.ofFeet left right)) (hs : o.Pairwise (fun a b => a.step.impactTime ≤ b.step.impactTime)) :
    (o.drop 2).Pairwise (fun a b => a.step.impactTime + gap ≤ b.step.impactTime) := by
  have hnd : (o.drop 2).Nodup := (hp.nodup_iff.mpr (ofFeet_nodup left right)).sublist (List.drop_sublist 2 o)
  have hboth := (hs.sublist (List.drop_sublist 2 o)).and hnd
  refine hboth.imp_of_mem ?_
  intro a b ha hb ⟨hle, hne⟩
  obtain ⟨ha, ia⟩ := (drop_two hl hr h1 h2 hw hp hs a).mp ha
  obtain ⟨hb, ib⟩ := (drop_two hl hr h1 h2 hw hp hs b).mp hb
  rw [mem_ofFeet] at ha hb
  have tailmem : ∀ q : Ptr K, (if q.left then left.steps else right.steps)[q.index]? = some q.step → 0 < q.index →
      (if q.left then left.steps.tail else right.steps.tail)[q.index - 1]? = some q.step := by
    intro q hq hi
    cases hb : q.left <;> simp only [hb, Bool.false_eq_true, if_true, if_false] at hq ⊢ <;>
      rw [List.getElem?_tail, show q.index - 1 + 1 = q.index by omega] <;> exact hq
  have ha := tailmem a ha ia
  have hb := tailmem b hb ib
  have same : ∀ tl : List (Step K), tl.Pairwise (fun a b => a.impactTime + gap ≤ b.impactTime) →
      tl[a.index - 1]? = some a.step → tl[b.index - 1]? = some b.step → a.left = b.left →
      a.step.impactTime + gap ≤ b.step.impactTime := by
    intro tl htl ha hb hab
    by_cases hi : a.index = b.index
    · exfalso
      apply hne
      rw [hi, hb] at ha
      cases a; cases b; simp at *; exact ⟨hab, hi, ha.symm⟩
    · rw [List.pairwise_iff_getElem] at htl
      obtain ⟨ka, ea⟩ := List.getElem?_eq_some_iff.mp ha
      obtain ⟨kb, eb⟩ := List.getElem?_eq_some_iff.mp hb
      rcases Nat.lt_or_gt_of_ne hi with hi | hi
      · have := htl (a.index - 1) (b.index - 1) ka kb (by omega)
        rw [ea, eb] at this; exact this
      · have := htl (b.index - 1) (a.index - 1) kb ka (by omega)
        rw [ea, eb] at this; linarith
  cases hal : a.left <;> cases hbl : b.left <;> simp only [hal, hbl, Bool.false_eq_true, if_true, if_false] at ha hb
  · exact same _ hw.orderR ha hb (by rw [hal, hbl])
  · rcases hw.cross b.step (List.mem_of_getElem? hb) a.step (List.mem_of_getElem? ha) with h | h <;> linarith
  · rcases hw.cross a.step (List.mem_of_getElem? ha) b.step (List.mem_of_getElem? hb) with h | h <;> linarith
  · exact same _ hw.orderL ha hb (by rw [hal, hbl])

/-- The steps of each foot come in the order of the footprint. -/
theorem drop_two_consumes {o : List (Ptr K)} (hl : left.steps = l :: ls) (hr : right.steps = r :: rs) (h1 : l.impactTime ≤ initTime)
    (h2 : r.impactTime ≤ initTime) {gap : K} (hg : 0 < gap) (hw : WellSpaced gap initTime left.steps right.steps)
    (hp : o.Perm (Ptr.ofFeet left right)) (hs : o.Pairwise (fun a b => a.step.impactTime ≤ b.step.impactTime)) :
    Consumes 1 1 (o.drop 2) := by
  have hnd : (o.drop 2).Nodup := (hp.nodup_iff.mpr (ofFeet_nodup left right)).sublist (List.drop_sublist 2 o)
  have hsp := drop_two_spaced hl hr h1 h2 hg hw hp hs
  have key : ∀ (b : Bool) (s : Step K) (ss : List (Step K)), (if b then left.steps else right.steps) = s :: ss →
      ss.Pairwise (fun a b => a.impactTime + gap ≤ b.impactTime) →
      (o.drop 2).filter (fun q => decide (q.left = b)) = (Ptr.ofFoot b (s :: ss)).tail := by
    intro b s ss he hss
    refine List.Perm.eq_of_pairwise (le := fun a b : Ptr K => a.step.impactTime < b.step.impactTime)
      (fun a b _ _ h1 h2 => absurd h1 (lt_asymm h2)) ?_ ?_ ?_
    · exact (hsp.filter _).imp (fun h => by linarith)
    · unfold Ptr.ofFoot
      rw [List.zipIdx_cons, List.map_cons, List.tail_cons, List.pairwise_map]
      have : (ss.zipIdx (0 + 1)).map Prod.fst = ss := by simp
      rw [← this, List.pairwise_map] at hss
      exact hss.imp (fun h => by linarith)
    · rw [List.perm_ext_iff_of_nodup (hnd.filter _) ((ofFoot_nodup b (s :: ss)).sublist (List.tail_sublist _))]
      intro q
      rw [List.mem_filter, drop_two hl hr h1 h2 hw hp hs, mem_ofFeet]
      have htl : q ∈ (Ptr.ofFoot b (s :: ss)).tail ↔ q ∈ Ptr.ofFoot b (s :: ss) ∧ 0 < q.index := by
        unfold Ptr.ofFoot
        rw [List.zipIdx_cons, List.map_cons, List.tail_cons, List.mem_cons]
        constructor
        · intro h
          refine ⟨.inr h, ?_⟩
          obtain ⟨⟨x, i⟩, h', rfl⟩ := List.mem_map.mp h
          have := List.le_snd_of_mem_zipIdx h'
          show 0 < i
          simp only at this
          omega
        · rintro ⟨h | h, hi⟩
          · rw [h] at hi; simp at hi
          · exact h
      rw [htl, mem_ofFoot, decide_eq_true_eq]
      constructor
      · rintro ⟨⟨a, b'⟩, rfl⟩
        rw [he] at a
        exact ⟨⟨rfl, a⟩, b'⟩
      · rintro ⟨⟨rfl, a⟩, b'⟩
        rw [he]
        exact ⟨⟨a, b'⟩, rfl⟩
  have hidx : ∀ (b : Bool) (s : Step K) (ss : List (Step K)), ((Ptr.ofFoot b (s :: ss)).tail).map Ptr.index = List.range' 1 ss.length := by
    intro b s ss
    unfold Ptr.ofFoot
    rw [List.zipIdx_cons, List.map_cons, List.tail_cons, List.map_map,
      show (Ptr.index ∘ fun p : Step K × Nat => (⟨b, p.2, p.1⟩ : Ptr K)) = Prod.snd from rfl, List.zipIdx_map_snd]
  have hwl := hw.orderL
  have hwr := hw.orderR
  rw [hl] at hwl; rw [hr] at hwr
  have kl := key true l ls (by simpa using hl) hwl
  have kr := key false r rs (by simpa using hr) hwr
  refine consumes_of (n := ls.length) (m := rs.length) ?_ ?_
  · rw [show (fun q : Ptr K => q.left) = fun q => decide (q.left = true) by funext q; simp, kl, hidx]
  · rw [show (fun q : Ptr K => !q.left) = fun q => decide (q.left = false) by funext q; cases q.left <;> rfl, kr, hidx]

/-- Well spaced steps are accepted. -/
theorem timeline_accepts {cfg : GenSettings K} (hv : ValidTimings cfg) (hd : 0 < dT) (he : dT / 2 ≤ cfg.endSwitch)
    (hn : left.footName ≠ right.footName) (hl : left.steps = l :: ls) (hr : right.steps = r :: rs)
    (h1 : l.impactTime ≤ initTime) (h2 : r.impactTime ≤ initTime) (hw : WellSpaced (dT / 2) initTime left.steps right.steps)
    {sorted : List (Ptr K)} (hs : SortedPtrs left right sorted) :
    ∃ a, timeline cfg left right initTime dT sorted = .ok a := by
  have hg : 0 < dT / 2 := by linarith
  cases h : timeline cfg left right initTime dT sorted with
  | ok a => exact ⟨a, rfl⟩
  | ub w =>
    exfalso
    rcases timeline_ub hv hs h with ⟨-, k1, k2⟩ | ⟨-, k1, -⟩
    · have k2l := k2 l (by simp [hl])
      have : ∃ s, s ∈ left.steps.tail ++ right.steps.tail := by
        rw [hl, hr] at k1 ⊢
        cases ls with
        | cons a _ => exact ⟨a, by simp⟩
        | nil =>
          cases rs with
          | cons a _ => exact ⟨a, by simp⟩
          | nil => simp at k1
      obtain ⟨s, hsm⟩ := this
      have a1 := hw.after s hsm
      have a2 := k2 s (by
        rcases List.mem_append.mp hsm with hm | hm
        · exact List.mem_append.mpr (.inl (List.mem_of_mem_tail hm))
        · exact List.mem_append.mpr (.inr (List.mem_of_mem_tail hm)))
      have := hv.end_pos
      linarith
    · linarith
  | fail =>
    exfalso
    unfold timeline at h
    simp only [hl, hr] at h
    rw [if_neg hn, if_neg (not_le.mpr hd), if_neg (not_lt.mpr (max_le h1 h2))] at h
    cases ho : orderSteps sorted with
    | ub w => rw [ho] at h; simp at h
    | fail =>
      obtain ⟨i, a, b, ha, hb, hab⟩ := orderSteps_fail ho
      have hsp := drop_two_spaced hl hr h1 h2 hg hw hs.1 hs.2
      rw [List.pairwise_iff_getElem] at hsp
      rw [show i + 2 = 2 + i by omega, ← List.getElem?_drop] at ha
      rw [show i + 3 = 2 + (i + 1) by omega, ← List.getElem?_drop] at hb
      obtain ⟨ka, ea⟩ := List.getElem?_eq_some_iff.mp ha
      obtain ⟨kb, eb⟩ := List.getElem?_eq_some_iff.mp hb
      have := hsp i (i + 1) ka kb (by omega)
      rw [ea, eb] at this
      linarith
    | ok o =>
      rw [ho] at h
      simp only [Out.bind_ok] at h
      obtain ⟨hperm, hsort, -⟩ := orderSteps_ok ho hs.2
      have hpo := hperm.trans hs.1
      cases hc : createPhasesTimings { cfg with nominalSwitchTime := cfg.switchPercentage * cfg.nominalStepTime } initTime dT (l :: ls) (r :: rs) o with
      | ok a => rw [hc] at h; simp at h
      | ub w => rw [hc] at h; simp at h
      | fail =>
        clear h
        unfold createPhasesTimings at hc
        have hne : o ≠ [] := by
          intro hc
          have := hpo.length_eq
          rw [ofFeet_length, hl, hc] at this
          simp only [List.length_nil, List.length_cons] at this
          omega
        rw [List.getLast?_eq_some_getLast hne] at hc
        simp only at hc
        by_cases h2l : o.length = 2
        · rw [if_pos h2l] at hc
          cases hr : roundSize (cfg.endSwitch / dT) with
          | fail => exact roundSize_not_fail hr
          | ok n => simp only [hr, Out.bind_ok, reduceCtorEq] at hc
          | ub w => simp only [hr, Out.bind_ub, reduceCtorEq] at hc
        · rw [if_neg h2l] at hc
          split_ifs at hc
          cases hA : addSteps { cfg with nominalSwitchTime := cfg.switchPercentage * cfg.nominalStepTime } dT (l :: ls).length
              (r :: rs).length true (decide (l.impactTime ≠ r.impactTime)) (o.drop 2)
              ⟨[], [], [0], [0], 1, 1, initTime, false, false⟩ with
          | ub w => rw [hA] at hc; simp at hc
          | fail =>
            refine addSteps_not_fail hd ?_ (drop_two_spaced hl hr h1 h2 hg hw hpo hsort)
              (drop_two_consumes hl hr h1 h2 hg hw hpo hsort) hA
            intro q hq
            obtain ⟨hq, hi⟩ := (drop_two hl hr h1 h2 hw hpo hsort q).mp hq
            rw [mem_ofFeet] at hq
            apply le_of_lt
            apply hw.after
            rw [hl, hr] at hq ⊢
            obtain ⟨n, hn⟩ : ∃ n, q.index = n + 1 := ⟨q.index - 1, by omega⟩
            rw [hn] at hq
            cases hb : q.left <;> simp [hb] at hq <;> simp [List.mem_of_getElem? hq]
          | ok s =>
            rw [hA] at hc
            simp only [Out.bind_ok] at hc
            unfold addLast at hc
            cases hr : roundSize (cfg.endSwitch / dT) with
            | fail => exact roundSize_not_fail hr
            | ub w => simp only [hr, Out.bind_ub, reduceCtorEq] at hc
            | ok n =>
              simp only [hr, Out.bind_ok] at hc
              cases hsub : subSize (s.shifts.getLastD 0 + n) 1 with
              | fail => exact subSize_not_fail hsub
              | ok m => rw [hsub] at hc; simp at hc
              | ub w => rw [hsub] at hc; simp at hc

end
end Uni.Gen
