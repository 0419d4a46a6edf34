import Verif.Lemmas.ZMP
import Verif.Lemmas.Landing

/-! # The steps used for the ZMP in the world -/

set_option autoImplicit false
set_option linter.unusedSectionVars false

namespace Uni
open Spec Gen
namespace Zmp

variable {K : Type} [Field K] [LinearOrder K] [IsStrictOrderedRing K] [FloorRing K]
variable {cfg : GenSettings K} {left right : FootPrint K} {initTime dT : K} {sorted ordered : List (Ptr K)} {t : Timing K}

theorem shift_mono (h : timeline cfg left right initTime dT sorted = .ok (ordered, t)) {x y u v : Nat}
    (hx : t.shifts[x]? = some u) (hy : t.shifts[y]? = some v) (hxy : x ≤ y) : u ≤ v := by
  obtain ⟨-, -, -, hmono, -⟩ := C34_partition h
  obtain ⟨a1, a2⟩ := List.getElem?_eq_some_iff.mp hx
  obtain ⟨b1, b2⟩ := List.getElem?_eq_some_iff.mp hy
  rcases Nat.eq_or_lt_of_le hxy with rfl | hlt
  · rw [← a2, ← b2]
  · rw [← a2, ← b2]; exact List.pairwise_iff_getElem.mp hmono x y a1 b1 hlt

/-- A sample is in one phase. -/
theorem shift_unique (h : timeline cfg left right initTime dT sorted = .ok (ordered, t)) {i i' a b a' b' j : Nat}
    (h1 : t.shifts[i]? = some a) (h2 : t.shifts[i + 1]? = some b) (h3 : a ≤ j) (h4 : j < b)
    (h1' : t.shifts[i']? = some a') (h2' : t.shifts[i' + 1]? = some b') (h3' : a' ≤ j) (h4' : j < b') :
    i = i' ∧ a = a' ∧ b = b' := by
  have hii : i = i' := by
    rcases lt_trichotomy i i' with hlt | he | hlt
    · have := shift_mono h h2 h1' (by omega); omega
    · exact he
    · have := shift_mono h h2' h1 (by omega); omega
  subst hii
  rw [h1] at h1'; cases h1'
  rw [h2] at h2'; cases h2'
  exact ⟨rfl, rfl, rfl⟩

theorem Current.standing (hs : SortedPtrs left right sorted) (h : timeline cfg left right initTime dT sorted = .ok (ordered, t))
    (hl : Named left) (hr : Named right) (f : Bool) {time : K} {s : Step K}
    (hc : Current (ordered.map Ptr.step) (if f then left.footName else right.footName) time s) :
    Standing (if f then left.steps else right.steps) time s := by
  obtain ⟨hperm, hsort, -⟩ := C39_ordered hs h
  obtain ⟨l0, r0, tt, hrun⟩ := timeline_ok h
  have hne := hrun.names
  obtain ⟨i, h1, h2, h3, h4⟩ := hc
  have hmem : ∀ s : Step K, s ∈ ordered.map Ptr.step ↔ s ∈ left.steps ∨ s ∈ right.steps := fun s => by
    rw [hperm.mem_iff, List.mem_append]
  have hname : ∀ s ∈ (if f then left.steps else right.steps), s.footName = (if f then left.footName else right.footName) := by
    intro s hs
    cases f
    · exact hr s hs
    · exact hl s hs
  refine ⟨?_, h3, fun s' hs' ht => ?_⟩
  · have := (hmem s).mp (List.mem_of_getElem? h1)
    cases f
    · rcases this with h5 | h5
      · exact absurd ((hl s h5).symm.trans h2) hne
      · exact h5
    · rcases this with h5 | h5
      · exact h5
      · exact absurd ((hr s h5).symm.trans h2).symm hne
  · have h5 : s' ∈ ordered.map Ptr.step := (hmem s').mpr (by cases f; exacts [Or.inr hs', Or.inl hs'])
    obtain ⟨j, hj⟩ := List.getElem?_of_mem h5
    rcases lt_trichotomy j i with hlt | rfl | hlt
    · have hsort' : (ordered.map Ptr.step).Pairwise (fun a b => a.impactTime ≤ b.impactTime) := List.pairwise_map.mpr hsort
      obtain ⟨a1, a2⟩ := List.getElem?_eq_some_iff.mp hj
      obtain ⟨b1, b2⟩ := List.getElem?_eq_some_iff.mp h1
      rw [← a2, ← b2]
      exact List.pairwise_iff_getElem.mp hsort' j i a1 b1 hlt
    · rw [h1] at hj; cases hj; exact le_refl _
    · exact absurd (h4 j s' hlt hj (hname s' hs')) (not_lt.mpr ht)

/-- The scan over the steps of a foot. -/
theorem scan_ok (hs : SortedPtrs left right sorted) (h : timeline cfg left right initTime dT sorted = .ok (ordered, t))
    (hl : Named left) (hr : Named right) (f : Bool) (n : Nat) :
    ∃ i l, backTo (ordered.map Ptr.step) (fun s => decide (s.footName = (if f then left.footName else right.footName)))
        ((ordered.map Ptr.step).length - 1) = .ok i ∧
      stepsUsed (ordered.map Ptr.step) (if f then left.footName else right.footName)
        (fun (k : Nat) => (k : K) * dT + initTime) n i = .ok l ∧ l.length = n ∧
      ∀ k, k < n → ∃ s, l[k]? = some s ∧ Standing (if f then left.steps else right.steps) ((k : K) * dT + initTime) s := by
  obtain ⟨hperm, -⟩ := C39_ordered hs h
  obtain ⟨l0, r0, tt, hrun⟩ := timeline_ok h
  have hex : ∃ s ∈ ordered.map Ptr.step, s.footName = (if f then left.footName else right.footName) ∧ s.impactTime ≤ initTime := by
    cases f
    · refine ⟨r0, ?_, hr r0 (List.mem_of_head? hrun.headR), hrun.init_r⟩
      rw [hperm.mem_iff, List.mem_append]; exact Or.inr (List.mem_of_head? hrun.headR)
    · refine ⟨l0, ?_, hl l0 (List.mem_of_head? hrun.headL), hrun.init_l⟩
      rw [hperm.mem_iff, List.mem_append]; exact Or.inl (List.mem_of_head? hrun.headL)
  obtain ⟨s0, m0, n0, t0⟩ := hex
  obtain ⟨j0, hj0⟩ := List.getElem?_of_mem m0
  have hj0' := (List.getElem?_eq_some_iff.mp hj0).1
  obtain ⟨i, s, b1, -, b3, b4, b5⟩ := backTo_ok (steps := ordered.map Ptr.step)
    (good := fun s => decide (s.footName = (if f then left.footName else right.footName)))
    (i := (ordered.map Ptr.step).length - 1) (by omega) ⟨j0, s0, by omega, hj0, by simpa using n0⟩
  have hdT := hrun.dT_pos
  obtain ⟨l, c1, c2, c3⟩ := stepsUsed_ok (steps := ordered.map Ptr.step) (time := fun (k : Nat) => (k : K) * dT + initTime)
    (name := if f then left.footName else right.footName)
    (fun a b hab => by
      have : (a : K) * dT ≤ (b : K) * dT := mul_le_mul_of_nonneg_right (by exact_mod_cast hab) hdT.le
      linarith)
    ⟨s0, m0, n0, by simpa using t0⟩ n i s b3 (by simpa using b4) (fun k _ j s' h1 h2 h3 => by
      have := b5 j s' h1 (by have := (List.getElem?_eq_some_iff.mp h2).1; omega) h2
      simp [h3] at this)
  refine ⟨i, l, b1, c1, c2, fun k hk => ?_⟩
  obtain ⟨s, d1, d2⟩ := c3 k hk
  exact ⟨s, d1, d2.standing hs h hl hr f⟩

variable [Trig K]

/-- The ZMP in the world over a timeline. -/
theorem world_at (hs : SortedPtrs left right sorted) (h : timeline cfg left right initTime dT sorted = .ok (ordered, t))
    (hl : Named left) (hr : Named right) {ol or : Step K} {zl zr : List (Motion2 K)} {wl wr : List (Motion K)}
    (n1 : zr.length = zl.length) (n2 : wl.length = zl.length) (n3 : wr.length = zl.length) :
    ∃ first out, t.shifts[1]? = some first ∧
      world ol or initTime dT t.shifts (ordered.map Ptr.step) left.footName right.footName zl zr wl wr = .ok out ∧
      out.length = zl.length ∧ ∀ j, j < zl.length → ∃ a b c d sl sr, zl[j]? = some a ∧ zr[j]? = some b ∧ wl[j]? = some c ∧
        wr[j]? = some d ∧ Standing left.steps ((j : K) * dT + initTime) sl ∧ Standing right.steps ((j : K) * dT + initTime) sr ∧
        out[j]? = some (if j < first then
          worldFirst (hermite 1 0 0 0 ((first : K) * dT) ((j : K) * dT)) c d sl sr ol or a b
        else worldAfter c d sl sr a b) := by
  obtain ⟨-, -, -, hlen⟩ := C37_all_steps hs h
  obtain ⟨hperm, -⟩ := C39_ordered hs h
  obtain ⟨l0, r0, tt, hrun⟩ := timeline_ok h
  have e1 : t.shifts[1]? = some t.shifts[1] := List.getElem?_eq_getElem (by omega)
  have hne : ordered.map Ptr.step ≠ [] := by
    intro hc
    have : l0 ∈ ordered.map Ptr.step := by
      rw [hperm.mem_iff, List.mem_append]; exact Or.inl (List.mem_of_head? hrun.headL)
    rw [hc] at this; simp at this
  obtain ⟨i, sl, b1, b2, b3, b4⟩ := scan_ok hs h hl hr true zl.length
  obtain ⟨j, sr, c1, c2, c3, c4⟩ := scan_ok hs h hl hr false zl.length
  simp only [if_true, Bool.false_eq_true, if_false] at b1 b2 b4 c1 c2 c4
  obtain ⟨out, ho⟩ := worldFrom_ok ol or dT t.shifts[1] 0 zl zr wl wr sl sr n1 n2 n3 b3 c3
  obtain ⟨d1, d2⟩ := worldFrom_at 0 zl zr wl wr sl sr ho
  refine ⟨t.shifts[1], out, e1, ?_, d1, fun j hj => ?_⟩
  · unfold world
    simp only [e1]
    rw [if_neg hne, b1, Out.bind_ok, c1, Out.bind_ok, b2, Out.bind_ok, c2, Out.bind_ok, ho]
  · obtain ⟨a, b, c, d, e, f, q1, q2, q3, q4, q5, q6, q7⟩ := d2 j hj
    obtain ⟨s, f1, f2⟩ := b4 j hj
    obtain ⟨s', g1, g2⟩ := c4 j hj
    rw [f1] at q5; cases q5
    rw [g1] at q6; cases q6
    rw [Nat.zero_add] at q7
    exact ⟨a, b, c, d, e, f, q1, q2, q3, q4, f2, g2, q7⟩

/-! ## The contact on which a foot stands -/

theorem slot_find (slots : List Slot) (j n : Nat) (hn : n ≤ slots.length) (hj : j < slotStart slots n) :
    ∃ k s, slots[k]? = some s ∧ slotStart slots k ≤ j ∧ j < slotStart slots (k + 1) ∧ k < n := by
  induction n with
  | zero => simp [slotStart, slotSegs, total] at hj
  | succ n ih =>
    by_cases hc : j < slotStart slots n
    · obtain ⟨k, s, h1, h2, h3, h4⟩ := ih (by omega) hc
      exact ⟨k, s, h1, h2, h3, by omega⟩
    · exact ⟨n, slots[n], List.getElem?_eq_getElem (by omega), by omega, hj, by omega⟩

/-- In which slot a sample is, and how many times the foot has landed before; after the last slot `k` is the number of
slots. -/
theorem sample_slot (hpos : t.shifts.Pairwise (· < ·)) {l r : Step K} {tt : Timetable} (hr : Run cfg left right initTime dT sorted ordered t l r tt)
    (f : Bool) (j : Nat) (hj : j < t.left.length) :
    ∃ k, k ≤ tt.slots.length ∧ slotStart tt.slots k ≤ j ∧ (k < tt.slots.length → j < slotStart tt.slots (k + 1)) ∧
      landings (if f then t.left else t.right) j = (tt.slots.take k).countP (fun x => x.left == f) := by
  have hp : tt.Positive := positive_of_shifts (by rw [← hr.built.shifts]; exact hpos)
  have e : (if f then t.left else t.right) = tt.phases f := by
    cases f
    · exact hr.built.right
    · exact hr.built.left
  have hT := total_eq tt
  have hN : t.left.length = total (tt.segs true) := by rw [hr.built.left, tt.length_phases]
  rw [e]
  unfold Timetable.phases
  rw [segs_eq]
  by_cases hc : j < slotStart tt.slots tt.slots.length
  · obtain ⟨k, s, h1, h2, h3, h4⟩ := slot_find tt.slots j tt.slots.length (le_refl _) hc
    refine ⟨k, h4.le, h2, fun _ => h3, ?_⟩
    rw [slotStart_succ _ _ _ h1] at h3
    have := landings_slot f tt.slots (if tt.lastLeft = f then .switchIn else .switchOut, tt.rest) (by split_ifs <;> simp) hp.2
      hp.1 k s h1 (j - slotStart tt.slots k) (by omega)
    rw [← this]
    congr 1; omega
  · refine ⟨tt.slots.length, le_refl _, by omega, fun hh => by omega, ?_⟩
    have := landings_rest f tt.slots (if tt.lastLeft = f then .switchIn else .switchOut, tt.rest) (by split_ifs <;> simp) hp.2
      hp.1 (j - slotStart tt.slots tt.slots.length) (by show _ < tt.rest; omega)
    rw [List.take_length, ← this]
    congr 1; omega

/-- The contact on which a foot is at a sample is the last one before it, except when it lands just after the first sample. -/
theorem standing_step (hs : SortedPtrs left right sorted) (h : timeline cfg left right initTime dT sorted = .ok (ordered, t))
    (hpos : t.shifts.Pairwise (· < ·)) {l r : Step K} {tt : Timetable} (hr : Run cfg left right initTime dT sorted ordered t l r tt)
    (f : Bool) (j : Nat) (hj : j < t.left.length) (s : Step K)
    (hst : Standing (if f then left.steps else right.steps) ((j : K) * dT + initTime) s) :
    (if f then left.steps else right.steps)[landings (if f then t.left else t.right) j]? = some s ∨
    ∃ m x, tt.slots[m]? = some x ∧ x.left = f ∧ slotStart tt.slots (m + 1) = j := by
  have hp : tt.Positive := positive_of_shifts (by rw [← hr.built.shifts]; exact hpos)
  have hdT := hr.dT_pos
  have hland := landing_of hs h hr f
  have hsucc : ∀ (m : Nat) (x : Slot), tt.slots[m]? = some x → slotStart tt.slots m + 2 ≤ slotStart tt.slots (m + 1) := by
    intro m x hx
    have := hp.1 x (List.mem_of_getElem? hx)
    rw [slotStart_succ _ _ _ hx]; omega
  obtain ⟨hd, hhd, hhi⟩ : ∃ hd : Step K, (if f then left.steps else right.steps)[0]? = some hd ∧ hd.impactTime ≤ initTime := by
    cases f
    · exact ⟨r, by rw [← List.head?_eq_getElem?]; exact hr.headR, hr.init_r⟩
    · exact ⟨l, by rw [← List.head?_eq_getElem?]; exact hr.headL, hr.init_l⟩
  obtain ⟨k, k1, k2, k3, k4⟩ := sample_slot hpos hr f j hj
  generalize hsteps : (if f then left.steps else right.steps) = steps at *
  rw [k4]
  set c := (tt.slots.take k).countP (fun x => x.left == f) with hc
  -- steps after number `c` land later
  have later : ∀ (c' : Nat) (s' : Step K), c ≤ c' → steps[c' + 1]? = some s' → (j : K) * dT + initTime < s'.impactTime := by
    intro c' s' hcc hs'
    obtain ⟨m, x, m1, m2, m3, m4⟩ := hland c' s' hs'
    have hmk : k ≤ m := by
      by_contra hlt
      have h1 := countP_take_succ (fun x : Slot => x.left == f) tt.slots m1 (by simpa using m2)
      have h2 := countP_take_mono (fun x : Slot => x.left == f) tt.slots (show m + 1 ≤ k by omega)
      omega
    have hml := (List.getElem?_eq_some_iff.mp m1).1
    have h3 := k3 (by omega)
    have h4 := slotStart_mono tt.slots (show k + 1 ≤ m + 1 by omega)
    have h5 : ((j : K) + 1) * dT ≤ ((slotStart tt.slots (m + 1) : Nat) : K) * dT :=
      mul_le_mul_of_nonneg_right (by exact_mod_cast (by omega)) hdT.le
    have := (abs_le.mp m4).2
    linarith
  obtain ⟨i, hi⟩ := List.getElem?_of_mem hst.mem
  rcases lt_trichotomy i c with hlt | rfl | hgt
  · -- the foot would stand on an earlier contact
    obtain ⟨c', hc'⟩ : ∃ c', c = c' + 1 := ⟨c - 1, by omega⟩
    have hlen : c < steps.length := by
      have := landings_last hs h hpos f
      have hmono : c ≤ tt.slots.countP (fun x => x.left == f) := (List.take_sublist k tt.slots).countP_le
      have hcnt := hr.counts hs
      have : tt.slots.countP (fun x => x.left == f) + 1 = steps.length := by
        rw [← hsteps]
        rcases hr.built.cases with ⟨h2, h3, -⟩ | ⟨-, ms, hsl, -⟩
        · rw [h3, List.countP_nil]
          rw [List.drop_of_length_le (by omega)] at hcnt
          cases f
          · exact hcnt.2
          · exact hcnt.1
        · rw [slots_count hsl f]
          cases f
          · exact hcnt.2
          · exact hcnt.1
      omega
    obtain ⟨m, x, m1, m2, m3, m4⟩ := hland c' steps[c] (by rw [← hc']; exact List.getElem?_eq_getElem hlen)
    have hmk : m < k := by
      by_contra hge
      have := countP_take_mono (fun x : Slot => x.left == f) tt.slots (show k ≤ m by omega)
      omega
    have h4 := slotStart_mono tt.slots (show m + 1 ≤ k by omega)
    by_cases hjm : slotStart tt.slots (m + 1) = j
    · exact Or.inr ⟨m, x, m1, m2, hjm⟩
    exfalso
    have h5 : (((slotStart tt.slots (m + 1) : Nat) : K) + 1) * dT ≤ (j : K) * dT :=
      mul_le_mul_of_nonneg_right (by exact_mod_cast (by omega)) hdT.le
    have h6 := (abs_le.mp m4).1
    have h7 := hst.last steps[c] (List.getElem_mem hlen) (by linarith)
    -- but the earlier contact is earlier
    cases i with
    | zero =>
      rw [hhd] at hi; cases hi
      have h8 := hsucc m x m1
      have h9 : (2 : K) * dT ≤ ((slotStart tt.slots (m + 1) : Nat) : K) * dT :=
        mul_le_mul_of_nonneg_right (by exact_mod_cast (by omega)) hdT.le
      have := (abs_le.mp m4).2
      linarith
    | succ i =>
      obtain ⟨m', x', n1, n2, n3, n4⟩ := hland i s hi
      have hmm : m' < m := by
        by_contra hge
        have := countP_take_mono (fun x : Slot => x.left == f) tt.slots (show m ≤ m' by omega)
        omega
      have h8 := hsucc m x m1
      have h9 := slotStart_mono tt.slots (show m' + 1 ≤ m by omega)
      have h10 : (((slotStart tt.slots (m' + 1) : Nat) : K) + 2) * dT ≤ ((slotStart tt.slots (m + 1) : Nat) : K) * dT :=
        mul_le_mul_of_nonneg_right (by exact_mod_cast (by omega)) hdT.le
      have h11 := (abs_le.mp m4).2
      have h12 := (abs_le.mp n4).1
      linarith
  · exact Or.inl hi
  · exfalso
    obtain ⟨c', rfl⟩ : ∃ c', i = c' + 1 := ⟨i - 1, by omega⟩
    exact absurd (later c' s (by omega) hi) (not_lt.mpr hst.before)

/-- The feet take turns. -/
theorem slots_alternate (hs : SortedPtrs left right sorted) (h : timeline cfg left right initTime dT sorted = .ok (ordered, t))
    {l r : Step K} {tt : Timetable} (hr : Run cfg left right initTime dT sorted ordered t l r tt)
    (ha : Alternating left.steps right.steps) (m : Nat) (x y : Slot) (hx : tt.slots[m]? = some x) (hy : tt.slots[m + 1]? = some y) :
    x.left ≠ y.left := by
  intro hxy
  obtain ⟨hperm, hsort, -⟩ := C39_ordered hs h
  obtain ⟨h1, -⟩ := C37_all_steps hs h
  rcases hr.built.cases with ⟨-, hn, -⟩ | ⟨-, ms, hsl, -⟩
  · rw [hn] at hx; simp at hx
  have hm := slots_left hsl
  have get : ∀ (k : Nat) (x : Slot), tt.slots[k]? = some x → ∃ q : Ptr K, ordered[k + 2]? = some q ∧ q.left = x.left := by
    intro k x hk
    have : (tt.slots.map Slot.left)[k]? = some x.left := by rw [List.getElem?_map, hk]; rfl
    rw [hm, List.getElem?_map, Option.map_eq_some_iff] at this
    obtain ⟨q, q1, q2⟩ := this
    exact ⟨q, by rw [List.getElem?_drop, Nat.add_comm] at q1; exact q1, q2⟩
  obtain ⟨q, q1, q2⟩ := get m x hx
  obtain ⟨q', q1', q2'⟩ := get (m + 1) y hy
  obtain ⟨a1, a2⟩ := h1 m q q1
  obtain ⟨b1, b2⟩ := h1 (m + 1) q' q1'
  have e : q'.index = q.index + 1 := by
    rw [b1, a1, q2', q2, ← hxy]
    have := countP_take_succ (fun p : Ptr K => p.left == x.left) (ordered.drop 2) (m := m) (x := q)
      (by rw [List.getElem?_drop, Nat.add_comm]; exact q1) (by simpa using q2)
    omega
  have ea : q.index = (q.index - 1) + 1 := by omega
  have hbetween : ∃ s : Step K, s ∈ ordered.map Ptr.step ∧ q.step.impactTime < s.impactTime ∧ s.impactTime < q'.step.impactTime := by
    rw [e, q2', ← hxy, ← q2] at b2
    cases hql : q.left
    · rw [hql] at a2 b2
      simp only [Bool.false_eq_true, if_false] at a2 b2
      obtain ⟨s, s1, s2⟩ := ha.2 (q.index - 1) q.step q'.step (by rw [← ea]; exact a2)
        (by rw [show q.index - 1 + 2 = q.index + 1 by omega]; exact b2)
      exact ⟨s, by rw [hperm.mem_iff, List.mem_append]; exact Or.inl s1, s2⟩
    · rw [hql] at a2 b2
      simp only [if_true] at a2 b2
      obtain ⟨s, s1, s2⟩ := ha.1 (q.index - 1) q.step q'.step (by rw [← ea]; exact a2)
        (by rw [show q.index - 1 + 2 = q.index + 1 by omega]; exact b2)
      exact ⟨s, by rw [hperm.mem_iff, List.mem_append]; exact Or.inr s1, s2⟩
  obtain ⟨s, s1, s2, s3⟩ := hbetween
  obtain ⟨p, p1, rfl⟩ := List.mem_map.mp s1
  obtain ⟨i, hi⟩ := List.getElem?_of_mem p1
  have le : ∀ (i j : Nat) (a b : Ptr K), ordered[i]? = some a → ordered[j]? = some b → i ≤ j →
      a.step.impactTime ≤ b.step.impactTime := by
    intro i j a b hi hj hij
    obtain ⟨a1, a2⟩ := List.getElem?_eq_some_iff.mp hi
    obtain ⟨b1, b2⟩ := List.getElem?_eq_some_iff.mp hj
    rcases Nat.eq_or_lt_of_le hij with rfl | hlt
    · rw [← a2, ← b2]
    · rw [← a2, ← b2]; exact List.pairwise_iff_getElem.mp hsort i j a1 b1 hlt
  rcases Nat.lt_or_ge i (m + 3) with hlt | hge
  · exact absurd (le i (m + 2) _ _ hi q1 (by omega)) (not_le.mpr s2)
  · exact absurd (le (m + 3) i _ _ q1' hi hge) (not_le.mpr s3)

end Zmp
end Uni
