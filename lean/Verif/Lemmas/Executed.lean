import Verif.Spec.Executed
import Verif.Props.Merge
import Verif.Props.Speed
import Verif.Props.Rates

/-! # Lemmas for `Verif.Props.Executed` -/

set_option autoImplicit false
set_option linter.unusedSectionVars false

namespace Uni.Walker
open Spec Gen
variable {K : Type} [Field K] [LinearOrder K] [IsStrictOrderedRing K] [FloorRing K] [Trig K]
variable {integ : Integrator K} {sort : Sorter K} {before old new w : Walker K} {c : Call K} {k m : Nat} {q : Request K} {dT time : K}
variable {legs : List (Leg K)}

/-! ## Chains -/

theorem chain_of_getElem? {α : Type} {R : α → α → Prop} {l : List α}
    (h : ∀ j x y, l[j]? = some x → l[j + 1]? = some y → R x y) : l.IsChain R := by
  induction l with
  | nil => simp
  | cons a l ih =>
    refine List.isChain_cons.mpr ⟨fun y hy => h 0 a y rfl ?_, ih fun j x y hx hy => h (j + 1) x y ?_ ?_⟩
    · rw [List.getElem?_cons_succ, ← List.head?_eq_getElem?]; exact hy
    · rw [List.getElem?_cons_succ]; exact hx
    · rw [List.getElem?_cons_succ]; exact hy

/-- A chain is left where another one begins. -/
theorem chain_joint {α : Type} {R : α → α → Prop} {pre l l' : List α} {m : Nat} (h : (pre ++ l).IsChain R) (h' : l'.IsChain R)
    (hj : ∀ a, l'[0]? = some a → l[m]? = some a) : (pre ++ l.take m ++ l').IsChain R := by
  cases l' with
  | nil =>
    rw [List.append_nil]
    rw [← List.take_append_drop m l, ← List.append_assoc] at h
    exact h.left_of_append
  | cons a l' =>
    have e := hj a rfl
    have hm := (List.getElem?_eq_some_iff.mp e).1
    have h2 : l.drop m = a :: l.drop (m + 1) := by
      rw [List.drop_eq_getElem_cons hm, (List.getElem?_eq_some_iff.mp e).2]
    rw [← List.take_append_drop m l, h2, show a :: l.drop (m + 1) = [a] ++ l.drop (m + 1) from rfl, ← List.append_assoc,
      ← List.append_assoc] at h
    have := List.IsChain.append_overlap (l₁ := pre ++ l.take m) (l₂ := [a]) (l₃ := l') h.left_of_append h' (by simp)
    simpa using this

/-- A chain is left for another one. -/
theorem chain_step {α : Type} {R : α → α → Prop} {pre l l' : List α} {m : Nat} (h : (pre ++ l).IsChain R) (h' : l'.IsChain R)
    (hj : ∀ a, l'[0]? = some a → ∃ j x, j + 1 = m ∧ l[j]? = some x ∧ R x a) : (pre ++ l.take m ++ l').IsChain R := by
  have h1 : (pre ++ l.take m).IsChain R := by
    rw [← List.take_append_drop m l, ← List.append_assoc] at h
    exact h.left_of_append
  refine List.isChain_append.mpr ⟨h1, h', fun x hx a ha => ?_⟩
  rw [List.head?_eq_getElem?] at ha
  obtain ⟨j, y, rfl, hy, hr⟩ := hj a ha
  have hlt := (List.getElem?_eq_some_iff.mp hy).1
  have : l.take (j + 1) = l.take j ++ [y] := by
    rw [List.take_succ, hy]; rfl
  rw [this, ← List.append_assoc, List.getLast?_append] at hx
  simp at hx
  subst hx
  exact hr

theorem executed_snoc {α : Type} (f : Walker K → List α) (legs : List (Leg K)) (l : Leg K) (w : Walker K) :
    executed f (legs ++ [l]) w = (legs.flatMap fun l => (f l.walk).take l.count) ++ (f l.walk).take l.count ++ f w := by
  simp [executed]

/-! ## Every walk is generated -/

theorem walking_made (h : Walking integ sort dT legs w time) :
    ∃ w1 ordered t, Reached integ sort w ∧ MadeBy w1 w time dT (sort w.left w.right) ordered t := by
  cases h with
  | start hr hg hd =>
    obtain ⟨w1, o, t, hm⟩ := call_made_by hg
    subst hd
    exact ⟨w1, o, t, .call _ _ _ _ _ hr hg, hm⟩
  | again hw hd hm =>
    obtain ⟨f0, h0⟩ := hm.generated
    have hro := Reached.call _ _ _ _ _ hm.reached h0
    obtain ⟨fuel, changes, weight, pos, vel, endTime, -, -, r3⟩ := hm.replanned
    have hr2 := Reached.runAll (changes.map .planner ++ [.zmp (.setWeightInitialState weight), .dcm (.setDCMInitialState pos vel)]) hro
    obtain ⟨w1, o, t, hmm⟩ := call_made_by (c := .reGenerate _ dT endTime _) r3
    exact ⟨w1, o, t, .call _ _ fuel (.reGenerate _ dT endTime _) true hr2 r3, hmm⟩

theorem shifts_of_long {n : Nat} {w1 : Walker K} {ordered : List (Ptr K)} {t : Timing K} (hl : LongPhases sort dT n w time)
    (hm : MadeBy w1 w time dT (sort w.left w.right) ordered t) : t.shifts.Pairwise (· < ·) := by
  obtain ⟨h0, h⟩ := hl
  have h := h _ _ hm.made
  rw [← List.isChain_iff_pairwise]
  exact chain_of_getElem? fun j x y hx hy => by have := h j x y hx hy; omega

theorem noEmpty_of_long {n : Nat} (hl : LongPhases sort dT n w time) : NoEmptyPhase sort w time dT := by
  intro ordered t ht
  obtain ⟨h0, h⟩ := hl
  have h := h _ _ ht
  rw [← List.isChain_iff_pairwise]
  exact chain_of_getElem? fun j x y hx hy => by have := h j x y hx hy; omega

/-! ## The feet -/

theorem ready_of_history {s : FeetSettings K} (h : FeetMade s) (h0 : 0 ≤ s.stepHeight) : MinJerk.Ready s := by
  obtain ⟨ops, rfl⟩ := h
  exact ⟨h0, (feet_apex ops).1, (feet_apex ops).2⟩

theorem contact_phase {w1 : Walker K} {sorted ordered : List (Ptr K)} {t : Timing K} (hm : MadeBy w1 w time dT sorted ordered t) (f : Bool)
    {j : Nat} (h : (if f then w.outputs.leftContact else w.outputs.rightContact)[j]? = some true) :
    ∃ p, (if f then t.left else t.right)[j]? = some p ∧ p ≠ .swing := by
  rw [hm.outputs] at h
  have key : ∀ l : List Phase, (contacts l)[j]? = some true → ∃ p, l[j]? = some p ∧ p ≠ .swing := by
    intro l hl
    simp only [contacts, List.getElem?_map, Option.map_eq_some_iff] at hl
    obtain ⟨p, h1, h2⟩ := hl
    exact ⟨p, h1, by simpa using h2⟩
  cases f
  · exact key _ h
  · exact key _ h

theorem first_contact {w1 : Walker K} {sorted ordered : List (Ptr K)} {t : Timing K} (hm : MadeBy w1 w time dT sorted ordered t)
    (hpos : t.shifts.Pairwise (· < ·)) (f : Bool) :
    (if f then w.outputs.leftContact else w.outputs.rightContact)[0]? = some true := by
  obtain ⟨-, hd⟩ := first_phase hm.made hpos f
  rw [hm.outputs]
  have key : ∀ l : List Phase, (l[0]? = some .switchIn ∨ l[0]? = some .switchOut) → (contacts l)[0]? = some true := by
    rintro l (h | h) <;> simp [contacts, h]
  cases f
  · exact key _ hd
  · exact key _ hd

theorem slip_chain {S : Type} {plugin : Walker K → Option (Plugin S (FeetOut K))} (f : Bool)
    (h : ∀ p out, plugin w = some p → p.result = some out → ∀ j o o',
      (if f then w.outputs.leftContact else w.outputs.rightContact)[j]? = some true → (if f then out.1 else out.2)[j]? = some o →
      (if f then out.1 else out.2)[j + 1]? = some o' → o'.pos.x = o.pos.x ∧ o'.pos.y = o.pos.y ∧ o'.yaw = o.yaw) :
    (footOf plugin f w).IsChain NoSlip := by
  unfold footOf
  cases hp : plugin w with
  | none => simp
  | some p =>
    simp only [Option.bind_some]
    cases ho : p.result with
    | none => simp
    | some out =>
      simp only
      refine chain_of_getElem? fun j x y hx hy hc => ?_
      rw [List.getElem?_zip_eq_some] at hx hy
      exact h p out hp ho j x.2 y.2 (by rw [hx.1, hc]) hx.2 hy.2

theorem minJerk_chain (hsort : ∀ l r, SortedPtrs l r (sort l r)) (hw : Walking integ sort dT legs w time) (hl : NoEmptyPhase sort w time dT)
    (hh : ∀ p, w.minJerk = some p → 0 ≤ p.state.stepHeight) (f : Bool) : (footOf Walker.minJerk f w).IsChain NoSlip := by
  obtain ⟨w1, ordered, t, hr, hm⟩ := walking_made hw
  have hpos := hl _ _ hm.made
  refine slip_chain f fun p out hp ho j o o' hc h1 h2 => ?_
  obtain ⟨p0, lo, ro, -, a2, a3, a4⟩ := hm.minJerk p hp
  rw [ho] at a3
  cases a3
  obtain ⟨ph, hph, hne⟩ := contact_phase hm f hc
  have hready := ready_of_history (hr.history.minJerk p hp) (hh p hp)
  rw [a2] at hready
  exact C97_standing hready (hsort _ _) hm.made hpos a4 f j ph hph hne o o' h1 h2

theorem cubic_chain (hsort : ∀ l r, SortedPtrs l r (sort l r)) (hw : Walking integ sort dT legs w time) (hl : NoEmptyPhase sort w time dT)
    (hh : ∀ p, w.cubic = some p → 0 ≤ p.state.stepHeight) (f : Bool) : (footOf Walker.cubic f w).IsChain NoSlip := by
  obtain ⟨w1, ordered, t, hr, hm⟩ := walking_made hw
  have hpos := hl _ _ hm.made
  refine slip_chain f fun p out hp ho j o o' hc h1 h2 => ?_
  obtain ⟨p0, lo, ro, -, a2, a3, a4⟩ := hm.cubic p hp
  rw [ho] at a3
  cases a3
  obtain ⟨ph, hph, hne⟩ := contact_phase hm f hc
  have hready := ready_of_history (hr.history.cubic p hp) (hh p hp)
  rw [a2] at hready
  exact C97_spline_standing hready (hsort _ _) hm.made hpos a4 f j ph hph hne o o' h1 h2

/-- Where a foot is when a walk is replaced, and where it is at the first sample of the new walk. -/
theorem foot_corrected {S : Type} {plugin : Walker K → Option (Plugin S (FeetOut K))} (h : FeetCorrected (plugin old) (plugin new) m q)
    (hsame : plugin old = none → plugin new = none) (hd : BothDown old m)
    (hn : ∀ f : Bool, (if f then new.outputs.leftContact else new.outputs.rightContact)[0]? = some true) (f : Bool)
    (a : Bool × FootSample K) (ha : (footOf plugin f new)[0]? = some a) :
    ∃ b, (footOf plugin f old)[m]? = some (true, b) ∧ a = (true, movedTo (measuredOf f q) b) := by
  cases hp' : plugin new with
  | none => simp [footOf, hp'] at ha
  | some p' =>
    cases hp : plugin old with
    | none => rw [hsame hp] at hp'; cases hp'
    | some p =>
      obtain ⟨lo, ro, lo', ro', e1, e2, e3⟩ := h p p' hp hp'
      obtain ⟨b, e4, e5⟩ := e3 f
      simp only [footOf, hp, hp', Option.bind_some, e1, e2] at ha ⊢
      rw [List.getElem?_zip_eq_some, hn f, e5] at ha
      refine ⟨b, ?_, ?_⟩
      · rw [List.getElem?_zip_eq_some]
        refine ⟨?_, e4⟩
        cases f
        · exact hd.2
        · exact hd.1
      · obtain ⟨h1, h2⟩ := ha
        injection h1 with h1
        injection h2 with h2
        exact Prod.ext h1.symm h2.symm

theorem foot_joint {S : Type} {plugin : Walker K → Option (Plugin S (FeetOut K))} (h : FeetCorrected (plugin old) (plugin new) m q)
    (hsame : plugin old = none → plugin new = none) (hd : BothDown old m)
    (hn : ∀ f : Bool, (if f then new.outputs.leftContact else new.outputs.rightContact)[0]? = some true) (f : Bool)
    (hq : measuredOf f q = none)
    (a : Bool × FootSample K) (ha : (footOf plugin f new)[0]? = some a) : (footOf plugin f old)[m]? = some a := by
  obtain ⟨b, h1, rfl⟩ := foot_corrected h hsame hd hn f a ha
  rw [hq]
  exact h1

theorem slip_of_noSlip {e a : K} (he : 0 ≤ e) (ha : 0 ≤ a) {x y : Bool × FootSample K} (h : NoSlip x y) : SlipsAtMost e a x y := by
  intro hx
  obtain ⟨h1, h2, h3⟩ := h hx
  rw [h1, h2, h3]
  simp [he, ha]

theorem foot_step {S : Type} {plugin : Walker K → Option (Plugin S (FeetOut K))} (h : FeetCorrected (plugin old) (plugin new) m q)
    (hsame : plugin old = none → plugin new = none) (hd : BothDown old m)
    (hn : ∀ f : Bool, (if f then new.outputs.leftContact else new.outputs.rightContact)[0]? = some true) (f : Bool)
    (hchain : (footOf plugin f old).IsChain NoSlip) (hm : 0 < m) (hbefore : ∀ j, j + 1 = m → BothDown old j) {e t : K} (he : 0 ≤ e) (ht : 0 ≤ t)
    {start : K} (hclose : CloseMeasurement plugin f e t ⟨old, start, m, q⟩)
    (a : Bool × FootSample K) (ha : (footOf plugin f new)[0]? = some a) :
    ∃ j x, j + 1 = m ∧ (footOf plugin f old)[j]? = some x ∧ SlipsAtMost e t x a := by
  obtain ⟨b, h1, rfl⟩ := foot_corrected h hsame hd hn f a ha
  obtain ⟨j, rfl⟩ : ∃ j, m = j + 1 := ⟨m - 1, by omega⟩
  have hlt := (List.getElem?_eq_some_iff.mp h1).1
  obtain ⟨x, hx⟩ : ∃ x, (footOf plugin f old)[j]? = some x := ⟨_, List.getElem?_eq_getElem (by omega)⟩
  refine ⟨j, x, rfl, hx, fun hc => ?_⟩
  have hs := (List.isChain_iff_getElem.mp hchain) j hlt
  rw [(List.getElem?_eq_some_iff.mp hx).2, (List.getElem?_eq_some_iff.mp h1).2] at hs
  obtain ⟨s1, s2, s3⟩ := hs hc
  simp only at s1 s2 s3
  cases hq : measuredOf f q with
  | none =>
    simp only [movedTo, s1, s2, s3, sub_self, abs_zero]
    exact ⟨he, he, ht⟩
  | some pa =>
    obtain ⟨p, angle⟩ := pa
    obtain ⟨c1, c2, c3⟩ := hclose p angle (true, b) hq h1
    simp only [movedTo, ← s1, ← s2, ← s3, add_sub_cancel_left]
    exact ⟨c1, c2, c3⟩

/-! ## The height -/

theorem heights_chain {n : Nat} (hw : Walking integ sort dT legs w time) (hl : LongPhases sort dT n w time) {δ : K}
    (hδ : ∀ p, w.height = some p → |p.state.delta| ≤ δ) :
    (heightsOf w).IsChain fun x y => |y.pos - x.pos| ≤ 3 * δ / n := by
  obtain ⟨w1, ordered, t, hr, hm⟩ := walking_made hw
  unfold heightsOf
  cases hp : w.height with
  | none => simp
  | some p =>
    simp only [Option.bind_some]
    obtain ⟨p0, o, -, a2, a3, a4⟩ := hm.height p hp
    rw [a3]
    simp only
    refine chain_of_getElem? fun j x y hx hy => ?_
    obtain ⟨h1, h2⟩ := CoMHeight.samples hm.made a4
    obtain ⟨i, a, b, ph, k, e, l, q1, q2, q3, q4, -⟩ := h2 j (List.getElem?_eq_some_iff.mp hx).1
    have hb := (CoMHeight.C105_height hm.made a4 i a b j q1 q2 q3 q4 x hx).2.2 y hy
    have hab := hl.2 _ _ hm.made i a b q1 q2
    have hn : (0 : K) < n := by exact_mod_cast hl.1
    have hnb : (n : K) ≤ ((b - a : Nat) : K) := by exact_mod_cast (by omega)
    have hd := hδ p hp
    rw [a2] at hd
    have h0 := abs_nonneg p0.state.delta
    refine hb.trans ?_
    exact div_le_div₀ (by linarith) (by linarith) hn hnb

/-! ## The loads -/

theorem loads_get {p : Plugin (Zmp K) (ZmpOut K)} {o : ZmpOut K} (hp : w.zmp = some p) (ho : p.result = some o) (f : Bool) :
    loadsOf f w = (if f then o.weightL else o.weightR).map fun x => (x.pos, x.vel) := by
  simp only [loadsOf, hp, Option.bind_some, ho]

theorem transferRate_nonneg {cfg : GenSettings K} (hv : ValidTimings cfg) (hd : 0 < dT) (n : Nat) {x : K} (hx : 0 ≤ x) :
    0 ≤ transferRate cfg dT n x := by
  obtain ⟨r1, r2⟩ := Zmp.times_valid hv
  unfold transferRate
  split_ifs
  · exact le_max_of_le_left (div_nonneg (by linarith) r1.le)
  · exact div_nonneg (by norm_num) (mul_nonneg (Nat.cast_nonneg _) hd.le)

/-- What `StartsCalmly` says about the state that was given to the generator. -/
theorem calm_state {w1 : Walker K} {sorted ordered : List (Ptr K)} {t : Timing K} {p p' : Plugin (Zmp K) (ZmpOut K)} {o : ZmpOut K} {r : K}
    (hv : ValidTimings w.cfg) (hm : MadeBy w1 w time dT sorted ordered t) (hpos : t.shifts.Pairwise (· < ·)) (hp : w.zmp = some p')
    (ho : p'.result = some o)
    (hc : p.state.computeNewTrajectories w.cfg time dT t.merges w.left w.right (ordered.map Ptr.step) t.left t.right t.shifts =
      .ok (p'.state, o)) (h : StartsCalmly r w) :
    0 ≤ r ∧ (p.state.initialSpecified = true → 0 ≤ p.state.initialState.pos ∧ p.state.initialState.pos ≤ 1) ∧
    (p.state.initialSpecified = true → |p.state.initialState.vel| ≤ r) := by
  obtain ⟨wl, e1, e2, e3⟩ := Zmp.C69_start hv hm.made hpos hc
  obtain ⟨c1, c2, c3⟩ := h (wl.pos, wl.vel) (by rw [loads_get hp ho]; simp [e1])
  simp only at c1 c2 c3
  refine ⟨(abs_nonneg _).trans c3, fun hs => ?_, fun hs => ?_⟩
  · rw [if_pos hs] at e2
    rw [← e2]; exact ⟨c1, c2⟩
  · rw [if_pos hs] at e3
    rw [← e3]; exact c3

theorem loads_chain {n : Nat} (hsort : ∀ l r, SortedPtrs l r (sort l r)) (hw : Walking integ sort dT legs w time)
    (hl : LongPhases sort dT n w time) (halt : Alternating w.left.steps w.right.steps) {r e : K} (hr : LoadRate w.cfg dT n r e)
    (hc : StartsCalmly r w) (f : Bool) : (loadsOf f w).IsChain fun x y => |y.1 - x.1| ≤ (e + 3 / 2 * r) * dT := by
  obtain ⟨w1, ordered, t, hre, hm⟩ := walking_made hw
  have hpos := shifts_of_long hl hm
  cases hp : w.zmp with
  | none => simp [loadsOf, hp]
  | some p' =>
    obtain ⟨p, o, -, a2, a3⟩ := hm.zmp p' hp
    obtain ⟨h0, hinit, hvel⟩ := calm_state hre.valid hm hpos hp a2 a3 hc
    obtain ⟨l0, r0, tt, hrun⟩ := timeline_ok hm.made
    have hd := hrun.dT_pos
    rw [loads_get hp a2]
    refine chain_of_getElem? fun j x y hx hy => ?_
    rw [List.getElem?_map, Option.map_eq_some_iff] at hx hy
    obtain ⟨x, hx, rfl⟩ := hx
    obtain ⟨y, hy, rfl⟩ := hy
    simp only
    obtain ⟨u1, u2, -⟩ := Zmp.C44_single_support hm.made a3
    have hj : j < t.left.length := by
      have := (List.getElem?_eq_some_iff.mp hx).1
      cases f
      · simpa [u2] using this
      · simpa [u1] using this
    obtain ⟨i, a, b, ph, l, q1, q2, q3, q4, q5, -⟩ := (Zmp.weights_at hm.made a3).2 j (by rw [u1]; exact hj)
    obtain ⟨k1, k2⟩ := Zmp.C105_load hre.valid hinit (hsort _ _) hm.made hpos halt a3 f i a b j q1 q2 q3 q4 ph (q5 j q3 q4) x y hx hy _ rfl
    have hab := hl.2 _ _ hm.made i a b q1 q2
    have hb := (hr (b - a) (by omega)).2
    have he : 0 ≤ e := (transferRate_nonneg hre.valid hd (b - a) (by norm_num)).trans hb
    by_cases hph : ph = .switchIn ∨ ph = .switchOut
    · refine (k1 hph).trans (mul_le_mul_of_nonneg_right ?_ hd.le)
      have : (if i = 0 ∧ p.state.initialSpecified = true then |p.state.initialState.vel| else 0) ≤ r := by
        split_ifs with hs
        · exact hvel hs.2
        · exact h0
      linarith
    · rw [k2 (by cases ph <;> simp_all), sub_self, abs_zero]
      exact mul_nonneg (by linarith) hd.le

theorem loads_joint (hpi : (0 : K) ≤ Trig.pi) (hsort : ∀ l r, SortedPtrs l r (sort l r)) (h : Merging integ sort before old new c k m q dT)
    (hL : NonNeg old.left) (hR : NonNeg old.right) (hold : NoEmptyPhase sort old (timesOf c).1 (timesOf c).2)
    (hnew : NoEmptyPhase sort new (timeOf c m) dT) (f : Bool) (a : K × K) (ha : (loadsOf f new)[0]? = some a) :
    (loadsOf f old)[m]? = some a := by
  obtain ⟨w1, ordered, t, w3, ordered', t', weight, pos, vel, sL, sR, cL, cR, hm1, hm3, hwt, -, parts⟩ := parts hpi h hL hR
  have hpos := hold _ _ hm1.made
  have hpos' := hnew _ _ hm3.made
  obtain ⟨fuel0, hg⟩ := h.generated
  have hro : Reached integ sort old := .call _ _ _ _ _ h.reached hg
  have hvalid' : ValidTimings new.cfg := by rw [hm3.cfg, parts.cfg]; exact hro.valid
  cases hp' : new.zmp with
  | none => simp [loadsOf, hp'] at ha
  | some p' =>
    obtain ⟨p2, o', b1, b2, b3⟩ := hm3.zmp p' hp'
    obtain ⟨p, hp⟩ : ∃ p, old.zmp = some p := by
      cases hz : old.zmp with
      | some p => exact ⟨p, rfl⟩
      | none => rcases parts.zmp with ⟨e, -⟩ | e <;> rw [e, hz] at b1 <;> cases b1
    obtain ⟨p0, o, a1, a2, a3⟩ := hm1.zmp p hp
    have hst : p2.state.initialSpecified = true ∧ p2.state.initialState = weight := by
      rcases parts.zmp with ⟨e, -⟩ | e <;> rw [e, hp] at b1 <;> cases b1 <;> exact ⟨rfl, rfl⟩
    have hk : t.merges[k]? = some m := by have := h.point; rwa [hm1.outputs] at this
    obtain ⟨-, st⟩ := Zmp.C69_states hro.valid (hsort _ _) hm1.made hpos a3
    obtain ⟨wl, l1, l2⟩ := st k m hk
    rw [hwt p hp] at l2
    cases l2
    obtain ⟨wl', l3, l4, l5⟩ := Zmp.C69_start hvalid' hm3.made hpos' b3
    rw [hst.1, hst.2] at l4 l5
    simp only [if_true] at l4 l5
    rw [loads_get hp a2]
    rw [loads_get hp' b2] at ha
    have i3 := (Zmp.compute_inv a3).2.2.1
    have hmir := (Zmp.compute_inv b3).2.2.1
    cases f
    · simp only [Bool.false_eq_true, if_false, i3, hmir, Zmp.mirror, List.getElem?_map, l1, l3, Option.map_some] at ha ⊢
      rw [← ha, l4, l5]
    · simp only [if_true, List.getElem?_map, l1, l3, Option.map_some] at ha ⊢
      rw [← ha, l4, l5]

/-- A sample with both feet on the ground after one with a foot in the air is not in the first double support. -/
theorem after_first {w1 : Walker K} {sorted ordered : List (Ptr K)} {t : Timing K} (hm1 : MadeBy w1 w time dT sorted ordered t) {first : Nat}
    (s0 : t.shifts[0]? = some 0) (s1 : t.shifts[1]? = some first) (hdown : BothDown w m) (hlater : ∃ j, j < m ∧ ¬ BothDown w j) : first ≤ m := by
  rw [BothDown, hm1.outputs] at hdown
  by_contra hc
  obtain ⟨j, hj1, hj2⟩ := hlater
  apply hj2
  obtain ⟨-, -, -, -, pp⟩ := C34_partition hm1.made
  obtain ⟨pl, pr, pq⟩ := pp 0 0 first s0 s1
  obtain ⟨c1, c2⟩ := pq m (by omega) (by omega)
  obtain ⟨c3, c4⟩ := pq j (by omega) (by omega)
  rw [BothDown, hm1.outputs]
  simp only [contacts, List.getElem?_map, c1, c2] at hdown
  simp only [contacts, List.getElem?_map, c3, c4]
  exact hdown

theorem calm_next {n : Nat} (hpi : (0 : K) ≤ Trig.pi) (hsort : ∀ l r, SortedPtrs l r (sort l r))
    (h : Merging integ sort before old new c k m q dT) (hL : NonNeg old.left) (hR : NonNeg old.right)
    (hold : LongPhases sort (timesOf c).2 n old (timesOf c).1) (hnew : NoEmptyPhase sort new (timeOf c m) dT) {r e : K}
    (hr : LoadRate old.cfg (timesOf c).2 n r e) (hdown : BothDown old m) (hlater : ∃ j, j < m ∧ ¬ BothDown old j)
    (hc : StartsCalmly r old) : StartsCalmly r new := by
  intro x hx'
  have hold' := noEmpty_of_long hold
  have hx := loads_joint hpi hsort h hL hR hold' hnew true x hx'
  obtain ⟨w1, ordered, t, w3, ordered', t', weight, pos, vel, sL, sR, cL, cR, hm1, hm3, hwt, -, parts⟩ := parts hpi h hL hR
  have hpos := hold' _ _ hm1.made
  obtain ⟨fuel0, hg⟩ := h.generated
  have hro : Reached integ sort old := .call _ _ _ _ _ h.reached hg
  cases hp : old.zmp with
  | none => simp [loadsOf, hp] at hx
  | some p' =>
    obtain ⟨p, o, -, a2, a3⟩ := hm1.zmp p' hp
    obtain ⟨h0, hinit, hvel⟩ := calm_state hro.valid hm1 hpos hp a2 a3 hc
    rw [loads_get hp a2, List.getElem?_map, Option.map_eq_some_iff] at hx
    obtain ⟨x, hx, rfl⟩ := hx
    clear hx'
    simp only
    obtain ⟨u1, u2, -⟩ := Zmp.C44_single_support hm1.made a3
    obtain ⟨first, s0, s1, s2, s3⟩ := first_shift hm1.made hpos
    have hfm : first ≤ m := after_first hm1 s0 s1 hdown hlater
    have hm : m < o.weightL.length := (List.getElem?_eq_some_iff.mp hx).1
    obtain ⟨i, a, b, ph, l, q1, q2, q3, q4, q5, -⟩ := (Zmp.weights_at hm1.made a3).2 m hm
    have hi : i ≠ 0 := by
      rintro rfl
      rw [s1] at q2
      cases q2
      omega
    obtain ⟨y1, y2⟩ := Zmp.C44_later hro.valid hm1.made a3 first m s1 hfm x (Or.inl hx)
    rw [BothDown, hm1.outputs] at hdown
    obtain ⟨-, pa, pb, ga, gb, na, nb⟩ := both_down hm1.made hdown.1 hdown.2
    have hrate := (Zmp.C105_load_rates hro.valid hinit hm1.made a3 true i a b m q1 q2 q3 q4 pa ga na x (by simpa using hx) 0
      (by rw [if_neg (fun hh => hi hh.1)])).1
    have hab := hold.2 _ _ hm1.made i a b q1 q2
    have := (hr (b - a) (by omega)).1
    exact ⟨y1, y2, by linarith⟩

end Uni.Walker
