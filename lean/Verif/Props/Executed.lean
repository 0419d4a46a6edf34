import Verif.Lemmas.ExecutedDemo

/-! # C111: walking on and on

The walks are replaced at merge points any number of times; the theorems are about what is executed of them. -/

set_option autoImplicit false
set_option linter.unusedSectionVars false

namespace Uni.Walker
open Spec Gen
variable {K : Type} [Field K] [LinearOrder K] [IsStrictOrderedRing K] [FloorRing K] [Trig K]
variable {integ : Integrator K} {sort : Sorter K} {w : Walker K} {dT time : K} {legs : List (Leg K)}

theorem everywhere_snoc {P : Walker K → K → Prop} {l : Leg K} (h : Everywhere P (legs ++ [l]) w time) :
    Everywhere P legs l.walk l.start ∧ P w time :=
  ⟨⟨fun x hx => h.1 x (by simp [hx]), h.1 l (by simp)⟩, h.2⟩

/-- C111: the clock runs on: the walk in execution starts as many periods after the first one as samples have been executed. -/
theorem C111_clock (h : Walking integ sort dT legs w time) :
    time = ((legs.map (·.count)).sum : Nat) * dT + (legs.head?.map (·.start)).getD time := by
  induction h with
  | start => simp
  | @again legs before old new c k m q hw hd hm ih =>
    rw [timeOf, hd]
    cases legs with
    | nil => simp
    | cons l legs =>
      simp only [List.head?_cons, Option.map_some, Option.getD_some, List.cons_append, List.map_cons, List.map_append, List.map_nil,
        List.sum_cons, List.sum_append, List.sum_nil] at ih ⊢
      rw [ih]
      push_cast
      ring

/-- C111: at every sample that is executed a foot is in contact. -/
theorem C111_support (h : Walking integ sort dT legs w time) : ∀ x ∈ executed supportsOf legs w, x.1 = true ∨ x.2 = true := by
  have key : ∀ {legs : List (Leg K)} {w : Walker K} {time : K}, Walking integ sort dT legs w time → ∀ x ∈ supportsOf w, x.1 = true ∨ x.2 = true := by
    intro legs w time h x hx
    obtain ⟨w1, ordered, t, -, hm⟩ := walking_made h
    obtain ⟨j, hj⟩ := List.getElem?_of_mem hx
    unfold supportsOf at hj
    rw [List.getElem?_zip_eq_some, hm.outputs] at hj
    have hlt : j < t.left.length := by
      have := (List.getElem?_eq_some_iff.mp hj.1).1
      simpa [contacts] using this
    obtain ⟨cl, cr, _, _, e1, e2, -, -, -, -, e3, -⟩ := C35_support hm.made j hlt
    simp only at hj
    rw [e1, e2] at hj
    obtain ⟨h1, h2⟩ := hj
    cases h1
    injection h2 with h2
    rw [h2] at e3
    simpa using e3
  induction h with
  | start hr hg hd =>
    intro x hx
    exact key (.start hr hg hd) x (by simpa [executed] using hx)
  | again hw hd hm ih =>
    intro x hx
    rw [executed_snoc, List.mem_append, List.mem_append] at hx
    rcases hx with (hx | hx) | hx
    · exact ih x (by rw [executed, List.mem_append]; exact Or.inl hx)
    · exact key hw x (List.mem_of_mem_take hx)
    · exact key (.again hw hd hm) x hx

/-- C111: a foot for which no measurement is given does not slip, from the first sample to the last, if the walks are replaced while
both feet stand. -/
theorem C111_feet (hpi : (0 : K) ≤ Trig.pi) (hsort : ∀ l r, SortedPtrs l r (sort l r)) (h : Walking integ sort dT legs w time)
    (htimes : Everywhere (fun w _ => NonNeg w.left ∧ NonNeg w.right) legs w time)
    (hphases : Everywhere (fun w time => NoEmptyPhase sort w time dT) legs w time)
    (hcubic : Everywhere (fun w _ => ∀ p, w.cubic = some p → 0 ≤ p.state.stepHeight) legs w time)
    (hjerk : Everywhere (fun w _ => ∀ p, w.minJerk = some p → 0 ≤ p.state.stepHeight) legs w time)
    (hleft : ∀ l ∈ legs, LeftStanding l) (f : Bool)
    (hplain : ∀ l ∈ legs, measuredOf f l.request = none) :
    (executed (footOf Walker.cubic f) legs w).IsChain NoSlip ∧ (executed (footOf Walker.minJerk f) legs w).IsChain NoSlip := by
  induction h with
  | start hr hg hd =>
    have hw := Walking.start (integ := integ) (sort := sort) hr hg hd
    exact ⟨by simpa [executed] using cubic_chain hsort hw hphases.2 hcubic.2 f,
      by simpa [executed] using minJerk_chain hsort hw hphases.2 hjerk.2 f⟩
  | @again legs before old new c k m q hw hd hm ih =>
    obtain ⟨t1, t2⟩ := everywhere_snoc htimes
    obtain ⟨p1, p2⟩ := everywhere_snoc hphases
    obtain ⟨c1, c2⟩ := everywhere_snoc hcubic
    obtain ⟨j1, j2⟩ := everywhere_snoc hjerk
    obtain ⟨i1, i2⟩ := ih t1 p1 c1 j1 (fun l hl => hleft l (by simp [hl])) fun l hl => hplain l (by simp [hl])
    obtain ⟨d1, d2⟩ := hleft ⟨old, (timesOf c).1, m, q⟩ (by simp)
    have hq := hplain ⟨old, (timesOf c).1, m, q⟩ (by simp)
    have hw' := Walking.again hw hd hm
    obtain ⟨f1, f2⟩ := C88_corrected hpi hsort hm t1.2.1 t1.2.2 (by rw [hd]; exact p1.2) p2 d1 d2 c1.2 j1.2
    obtain ⟨_, _, _, w3, _, t', _, _, _, _, _, _, _, _, hm3, _, _, parts⟩ := parts hpi hm t1.2.1 t1.2.2
    have hn := first_contact hm3 (p2 _ _ hm3.made)
    rw [executed_snoc, executed_snoc]
    refine ⟨chain_joint i1 (cubic_chain hsort hw' p2 c2 f) (foot_joint f1 ?_ d1 hn f hq),
      chain_joint i2 (minJerk_chain hsort hw' p2 j2 f) (foot_joint f2 ?_ d1 hn f hq)⟩
    · intro hno
      cases hnew : new.cubic with
      | none => rfl
      | some p' =>
        obtain ⟨p, _, _, e, -⟩ := hm3.cubic p' hnew
        rw [parts.cubic, hno] at e
        cases e
    · intro hno
      cases hnew : new.minJerk with
      | none => rfl
      | some p' =>
        obtain ⟨p, _, _, e, -⟩ := hm3.minJerk p' hnew
        rw [parts.minJerk, hno] at e
        cases e

/-- C111: a foot in contact is never moved by more than the measurements say: by at most `e` and by an angle of at most `a` if the
measurements are that close to where the walks have the foot. -/
theorem C111_corrected (hpi : (0 : K) ≤ Trig.pi) (hsort : ∀ l r, SortedPtrs l r (sort l r)) (h : Walking integ sort dT legs w time)
    (htimes : Everywhere (fun w _ => NonNeg w.left ∧ NonNeg w.right) legs w time)
    (hphases : Everywhere (fun w time => NoEmptyPhase sort w time dT) legs w time)
    (hcubic : Everywhere (fun w _ => ∀ p, w.cubic = some p → 0 ≤ p.state.stepHeight) legs w time)
    (hjerk : Everywhere (fun w _ => ∀ p, w.minJerk = some p → 0 ≤ p.state.stepHeight) legs w time)
    (hleft : ∀ l ∈ legs, LeftStanding l) (hcount : ∀ l ∈ legs, 0 < l.count) (f : Bool) {e a : K}
    (he : 0 ≤ e) (ha : 0 ≤ a)
    (hclose : ∀ l ∈ legs, CloseMeasurement Walker.cubic f e a l ∧ CloseMeasurement Walker.minJerk f e a l) :
    (executed (footOf Walker.cubic f) legs w).IsChain (SlipsAtMost e a) ∧
    (executed (footOf Walker.minJerk f) legs w).IsChain (SlipsAtMost e a) := by
  induction h with
  | start hr hg hd =>
    have hw := Walking.start (integ := integ) (sort := sort) hr hg hd
    exact ⟨by simpa [executed] using (cubic_chain hsort hw hphases.2 hcubic.2 f).imp fun _ _ => slip_of_noSlip he ha,
      by simpa [executed] using (minJerk_chain hsort hw hphases.2 hjerk.2 f).imp fun _ _ => slip_of_noSlip he ha⟩
  | @again legs before old new c k m q hw hd hm ih =>
    obtain ⟨t1, t2⟩ := everywhere_snoc htimes
    obtain ⟨p1, p2⟩ := everywhere_snoc hphases
    obtain ⟨c1, c2⟩ := everywhere_snoc hcubic
    obtain ⟨j1, j2⟩ := everywhere_snoc hjerk
    obtain ⟨i1, i2⟩ := ih t1 p1 c1 j1 (fun l hl => hleft l (by simp [hl])) (fun l hl => hcount l (by simp [hl]))
      fun l hl => hclose l (by simp [hl])
    obtain ⟨d1, d2⟩ := hleft ⟨old, (timesOf c).1, m, q⟩ (by simp)
    obtain ⟨q1, q2⟩ := hclose ⟨old, (timesOf c).1, m, q⟩ (by simp)
    have hcnt : 0 < m := hcount ⟨old, (timesOf c).1, m, q⟩ (by simp)
    have hw' := Walking.again hw hd hm
    obtain ⟨f1, f2⟩ := C88_corrected hpi hsort hm t1.2.1 t1.2.2 (by rw [hd]; exact p1.2) p2 d1 d2 c1.2 j1.2
    obtain ⟨_, _, _, w3, _, t', _, _, _, _, _, _, _, _, hm3, _, _, parts⟩ := parts hpi hm t1.2.1 t1.2.2
    have hn := first_contact hm3 (p2 _ _ hm3.made)
    rw [executed_snoc, executed_snoc]
    refine ⟨chain_step i1 ((cubic_chain hsort hw' p2 c2 f).imp fun _ _ => slip_of_noSlip he ha)
        (foot_step f1 ?_ d1 hn f (cubic_chain hsort hw p1.2 c1.2 f) hcnt d2 he ha q1),
      chain_step i2 ((minJerk_chain hsort hw' p2 j2 f).imp fun _ _ => slip_of_noSlip he ha)
        (foot_step f2 ?_ d1 hn f (minJerk_chain hsort hw p1.2 j1.2 f) hcnt d2 he ha q2)⟩
    · intro hno
      cases hnew : new.cubic with
      | none => rfl
      | some p' =>
        obtain ⟨p, _, _, e, -⟩ := hm3.cubic p' hnew
        rw [parts.cubic, hno] at e
        cases e
    · intro hno
      cases hnew : new.minJerk with
      | none => rfl
      | some p' =>
        obtain ⟨p, _, _, e, -⟩ := hm3.minJerk p' hnew
        rw [parts.minJerk, hno] at e
        cases e

/-- C111: the height of the centre of mass changes gradually, from the first sample to the last. -/
theorem C111_height (hpi : (0 : K) ≤ Trig.pi) (h : Walking integ sort dT legs w time) {n : Nat} {δ : K}
    (htimes : Everywhere (fun w _ => NonNeg w.left ∧ NonNeg w.right) legs w time)
    (hphases : Everywhere (fun w time => LongPhases sort dT n w time) legs w time)
    (hδ : Everywhere (fun w _ => ∀ p, w.height = some p → |p.state.delta| ≤ δ) legs w time)
    (hleft : ∀ l ∈ legs, BothDown l.walk l.count) :
    (executed heightsOf legs w).IsChain fun x y => |y.pos - x.pos| ≤ 3 * δ / n := by
  induction h with
  | start hr hg hd =>
    have hw := Walking.start (integ := integ) (sort := sort) hr hg hd
    simpa [executed] using heights_chain hw hphases.2 hδ.2
  | @again legs before old new c k m q hw hd hm ih =>
    obtain ⟨t1, t2⟩ := everywhere_snoc htimes
    obtain ⟨p1, p2⟩ := everywhere_snoc hphases
    obtain ⟨e1, e2⟩ := everywhere_snoc hδ
    have i1 := ih t1 p1 e1 fun l hl => hleft l (by simp [hl])
    have d1 := hleft ⟨old, (timesOf c).1, m, q⟩ (by simp)
    have hj := C88_height hpi hm t1.2.1 t1.2.2 (noEmpty_of_long p2) d1
    obtain ⟨_, _, _, w3, _, t', _, _, _, _, _, _, _, _, hm3, _, _, parts⟩ := parts hpi hm t1.2.1 t1.2.2
    rw [executed_snoc]
    refine chain_joint i1 (heights_chain (.again hw hd hm) p2 e2) fun a ha => ?_
    cases hnew : new.height with
    | none => simp [heightsOf, hnew] at ha
    | some p' =>
      obtain ⟨p, _, e, -⟩ := hm3.height p' hnew
      rw [parts.height] at e
      obtain ⟨o, o', x, g1, g2, g3, g4⟩ := hj p p' e hnew
      simp only [heightsOf, hnew, e, Option.bind_some, g1, g2] at ha ⊢
      rw [g3, ← g4]; exact ha

/-- C111: so does the load of the feet, if no walk is replaced before its first step. -/
theorem C111_load (hpi : (0 : K) ≤ Trig.pi) (hsort : ∀ l r, SortedPtrs l r (sort l r)) (h : Walking integ sort dT legs w time) {n : Nat}
    {r e : K} (htimes : Everywhere (fun w _ => NonNeg w.left ∧ NonNeg w.right) legs w time)
    (hphases : Everywhere (fun w time => LongPhases sort dT n w time) legs w time)
    (halt : Everywhere (fun w _ => Alternating w.left.steps w.right.steps) legs w time)
    (hrate : Everywhere (fun w _ => LoadRate w.cfg dT n r e) legs w time)
    (hleft : ∀ l ∈ legs, BothDown l.walk l.count ∧ LeftWalking l)
    (hstart : StartsCalmly r ((legs.head?.map (·.walk)).getD w)) (f : Bool) :
    (executed (loadsOf f) legs w).IsChain fun x y => |y.1 - x.1| ≤ (e + 3 / 2 * r) * dT := by
  suffices key : (executed (loadsOf f) legs w).IsChain (fun x y => |y.1 - x.1| ≤ (e + 3 / 2 * r) * dT) ∧ StartsCalmly r w from key.1
  induction h with
  | start hr hg hd =>
    have hw := Walking.start (integ := integ) (sort := sort) hr hg hd
    have hstart : StartsCalmly r _ := hstart
    exact ⟨by simpa [executed] using loads_chain hsort hw hphases.2 halt.2 hrate.2 hstart f, hstart⟩
  | @again legs before old new c k m q hw hd hm ih =>
    obtain ⟨t1, t2⟩ := everywhere_snoc htimes
    obtain ⟨p1, p2⟩ := everywhere_snoc hphases
    obtain ⟨a1, a2⟩ := everywhere_snoc halt
    obtain ⟨e1, e2⟩ := everywhere_snoc hrate
    obtain ⟨i1, i2⟩ := ih t1 p1 a1 e1 (fun l hl => hleft l (by simp [hl])) (by cases legs <;> simpa using hstart)
    obtain ⟨d1, d2⟩ := hleft ⟨old, (timesOf c).1, m, q⟩ (by simp)
    have p2' := noEmpty_of_long p2
    have hcalm := calm_next hpi hsort hm t1.2.1 t1.2.2 (by rw [hd]; exact p1.2) p2' (by rw [hd]; exact e1.2) d1 d2 i2
    refine ⟨?_, hcalm⟩
    rw [executed_snoc]
    exact chain_joint i1 (loads_chain hsort (.again hw hd hm) p2 a2 e2 hcalm f)
      (loads_joint hpi hsort hm t1.2.1 t1.2.2 (by rw [hd]; exact noEmpty_of_long p1.2) p2' f)

/-- C111: the rates that C111_load needs always exist: with double supports of at least `n` samples these will do. -/
theorem C111_rate {cfg : GenSettings K} (hd : 0 < dT) {n : Nat} (hn : 0 < n) :
    LoadRate cfg dT n
      (max (max (3 / 2 / 2 / cfg.endSwitch) (3 / 2 / 2 / ((leaving cfg dT : K) * dT))) (3 / 2 / ((n : K) * dT)))
      (max (max (9 / 4 / 2 / cfg.endSwitch) (3 / 2 / 2 / ((leaving cfg dT : K) * dT))) (3 / 2 / ((n : K) * dT))) := by
  intro k hk
  have h1 : (3 / 2 : K) / ((k : K) * dT) ≤ 3 / 2 / ((n : K) * dT) := by
    have hn' : (0 : K) < n := by exact_mod_cast hn
    have hk' : (n : K) ≤ k := by exact_mod_cast hk
    exact div_le_div_of_nonneg_left (by norm_num) (mul_pos hn' hd) (mul_le_mul_of_nonneg_right hk' hd.le)
  unfold transferRate
  split_ifs
  · exact ⟨le_max_left _ _, le_max_left _ _⟩
  · exact ⟨h1.trans (le_max_right _ _), h1.trans (le_max_right _ _)⟩

section
open Demo
attribute [local instance] Demo.flat

/-- Non-vacuity of C111: a walk that is replaced twice, the second time with a measurement of the left foot; this foot gets to 37/80,
and nothing jumps on the way. -/
example : ∃ (legs : List (Leg ℚ)) (w : Walker ℚ) (time r e : ℚ), Walking onward insertion (1 / 2) legs w time ∧ legs.length = 2 ∧
    ((executed (footOf Walker.minJerk true) legs w).map (·.2.pos.x)).getLast? = some (37 / 80) ∧
    (∃ l ∈ legs, measuredOf true l.request ≠ none) ∧
    (executed (footOf Walker.minJerk true) legs w).IsChain (SlipsAtMost (1 / 100) 0) ∧
    (executed (footOf Walker.minJerk false) legs w).IsChain NoSlip ∧
    (executed heightsOf legs w).IsChain (fun x y => |y.pos - x.pos| ≤ 3 / 20) ∧
    (executed (loadsOf true) legs w).IsChain fun x y => |y.1 - x.1| ≤ (e + 3 / 2 * r) * (1 / 2) := by
  have h := execution_checked
  unfold executionCheck at h
  split at h
  case h_2 => cases h
  rename_i w m w' m' w'' hex
  simp only [Bool.and_eq_true, decide_eq_true_eq] at h
  obtain ⟨⟨⟨⟨⟨⟨⟨⟨⟨f1, f2⟩, f3⟩, s1⟩, s2⟩, hlast⟩, n1⟩, n2⟩, n3, n4, n5, n6⟩, hload⟩ := h
  obtain ⟨a1, a2, a3, a4, a5, a6, a7⟩ := fine_iff f1
  obtain ⟨b1, b2, b3, b4, b5, b6, b7⟩ := fine_iff f2
  obtain ⟨c1, c2, c3, c4, c5, c6, c7⟩ := fine_iff f3
  unfold execution at hex
  split at hex
  case h_2 => cases hex
  rename_i w0 hgen
  split at hex
  case h_2 => cases hex
  rename_i w1 m1 hr1
  split at hex
  case h_2 => cases hex
  rename_i w2 m2 hr2
  cases hex
  have r0 : Reached onward insertion equipped := Reached.runAll _ (.new 0)
  have g1 := replaced_merging (c := .generate 0 (1 / 2) 10) r0 hgen rfl hr1
  have rw0 := Reached.call _ _ _ _ _ r0 hgen
  obtain ⟨before, rb, hb⟩ := replaced_call rw0 hr1
  have g2 := replaced_merging (c := .reGenerate ((m : ℚ) * (1 / 2) + 0) (1 / 2) 15 .plain) rb hb rfl hr2
  have hw0 : Walking onward insertion (1 / 2) [] w (0 : ℚ) := Walking.start (c := .generate 0 (1 / 2) 10) r0 hgen rfl
  have hw1 : Walking onward insertion (1 / 2) [⟨w, 0, m, .plain⟩] w' (m * (1 / 2) + 0) := Walking.again (c := .generate 0 (1 / 2) 10) hw0 rfl g1
  have hw2 : Walking onward insertion (1 / 2) [⟨w, 0, m, .plain⟩, ⟨w', m * (1 / 2) + 0, m', nudge w' 1⟩] w'' (m' * (1 / 2) + (m * (1 / 2) + 0)) :=
    Walking.again (c := .reGenerate ((m : ℚ) * (1 / 2) + 0) (1 / 2) 15 .plain) hw1 rfl g2
  have every : ∀ P : Walker ℚ → ℚ → Prop, P w 0 → P w' (m * (1 / 2) + 0) → P w'' (m' * (1 / 2) + (m * (1 / 2) + 0)) →
      Everywhere P [⟨w, 0, m, .plain⟩, ⟨w', m * (1 / 2) + 0, m', nudge w' 1⟩] w'' (m' * (1 / 2) + (m * (1 / 2) + 0)) := by
    intro P h1 h2 h3
    refine ⟨fun l hl => ?_, h3⟩
    simp only [List.mem_cons, List.not_mem_nil, or_false] at hl
    rcases hl with rfl | rfl
    exacts [h1, h2]
  have hst : ∀ l ∈ [(⟨w, 0, m, .plain⟩ : Leg ℚ), ⟨w', m * (1 / 2) + 0, m', nudge w' 1⟩], LeftStanding l ∧ LeftWalking l := by
    intro l hl
    simp only [List.mem_cons, List.not_mem_nil, or_false] at hl
    rcases hl with rfl | rfl
    exacts [stands_iff s1, stands_iff s2]
  have hpi : (0 : ℚ) ≤ Trig.pi := by decide +kernel
  have hrate := C111_rate (cfg := equipped.cfg) (dT := (1 / 2 : ℚ)) (by norm_num) (n := 2) (by norm_num)
  have k1 := C111_feet hpi insertion_sorts hw2 (every _ a1 b1 c1) (every _ (noEmpty_of_long a2) (noEmpty_of_long b2) (noEmpty_of_long c2))
    (every _ a3 b3 c3) (every _ a4 b4 c4) (fun l hl => (hst l hl).1) false
    (by
      intro l hl
      simp only [List.mem_cons, List.not_mem_nil, or_false] at hl
      rcases hl with rfl | rfl
      exacts [rfl, n4])
  have k4 := C111_corrected hpi insertion_sorts hw2 (every _ a1 b1 c1) (every _ (noEmpty_of_long a2) (noEmpty_of_long b2) (noEmpty_of_long c2))
    (every _ a3 b3 c3) (every _ a4 b4 c4) (fun l hl => (hst l hl).1)
    (by
      intro l hl
      simp only [List.mem_cons, List.not_mem_nil, or_false] at hl
      rcases hl with rfl | rfl
      exacts [n5, n6]) true (e := 1 / 100) (a := 0) (by norm_num) le_rfl
    (by
      intro l hl
      simp only [List.mem_cons, List.not_mem_nil, or_false] at hl
      rcases hl with rfl | rfl
      · exact ⟨fun _ _ _ h => (by cases h), fun _ _ _ h => (by cases h)⟩
      · exact ⟨close_iff n1, close_iff n2⟩)
  have k2 := C111_height hpi hw2 (every _ a1 b1 c1) (every _ a2 b2 c2) (every _ a5 b5 c5) (fun l hl => (hst l hl).1.1)
  have k3 := C111_load hpi insertion_sorts hw2 (every _ a1 b1 c1) (every _ a2 b2 c2) (every _ a6 b6 c6)
    (every _ (by rw [a7]; exact hrate) (by rw [b7]; exact hrate) (by rw [c7]; exact hrate)) (fun l hl => ⟨(hst l hl).1.1, (hst l hl).2⟩)
    (by
      intro x hx
      simp only [List.head?_cons, Option.map_some, Option.getD_some] at hx
      rw [hload] at hx
      cases hx
      refine ⟨by norm_num, by norm_num, ?_⟩
      rw [abs_zero]
      exact le_max_of_le_right (by norm_num)) true
  refine ⟨_, _, _, _, _, hw2, rfl, hlast, ⟨⟨w', m * (1 / 2) + 0, m', nudge w' 1⟩, by simp, n3⟩, k4.2, k1.2, ?_, k3⟩
  refine List.IsChain.imp (fun x y h => ?_) k2
  refine h.trans ?_
  norm_num
end

end Uni.Walker
