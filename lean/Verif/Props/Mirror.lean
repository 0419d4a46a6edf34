import Verif.Lemmas.MirrorFrom

/-! # C93: a walk in the mirror -/

set_option autoImplicit false
set_option linter.unusedSectionVars false

namespace Uni.Spec
open Uni Uni.Gen Uni.Walker

section
variable {K : Type} [Field K] [LinearOrder K] [IsStrictOrderedRing K] [FloorRing K] [Trig K]
variable {w w' w1 : Walker K} {left right : FootPrint K} {t dT : K} {s s' : List (Ptr K)}

private theorem firsts (h : FirstContactsFirst left right) : FirstContactsFirst (Mirror.footPrint right) (Mirror.footPrint left) := by
  intro a b ha hb x hx
  simp only [Mirror.footPrint_steps, List.head?_map, Option.map_eq_some_iff] at ha hb
  obtain ⟨a, ha, rfl⟩ := ha
  obtain ⟨b, hb, rfl⟩ := hb
  simp only [Mirror.footPrint_steps, ← List.map_tail, List.mem_append, List.mem_map] at hx
  have := h b a hb ha
  rcases hx with ⟨x, hx, rfl⟩ | ⟨x, hx, rfl⟩
  · exact (this x (List.mem_append_right _ hx)).symm
  · exact (this x (List.mem_append_left _ hx)).symm

private theorem named {f : FootPrint K} (h : Named f) : Named (Mirror.footPrint f) := by
  intro x hx
  simp only [Mirror.footPrint_steps, List.mem_map] at hx
  obtain ⟨x, hx, rfl⟩ := hx
  rw [Mirror.step_footName, Mirror.footPrint_footName, h x hx]

/-- C93 (partial).  Full statement: if left and right are exchanged in the footprints and in the settings, the trajectories are those of
the mirror, and so are the phases, the contacts and the weights.  Missing: the phases of a robot that stands on two contacts made at the
same time (`StandsTied`, `C93_standing_witness`), and the weights reported with the DCM in double support (`DcmOutMirrored`,
`C93_weights_witness`): both claims are false of the code. -/
theorem C93_mirror_partial (hp : TrigParity K) (h : SettingsMirrored w w') (hs : SortedPtrs left right s)
    (hw : w.generateFromFootPrints left right t dT s = .ok (true, w1)) :
    ∃ w1', w'.generateFromFootPrints (Mirror.footPrint right) (Mirror.footPrint left) t dT (s.map Mirror.ptr) = .ok (true, w1') ∧
      WalkMirrored w1 w1' :=
  h.from hp hs hw

/-- C93: if only the first contacts of the feet can be simultaneous, the sort is free to leave them in any order. -/
theorem C93_any_order_partial (hp : TrigParity K) (h : SettingsMirrored w w') (hf : FirstContactsFirst left right) (nl : Named left)
    (nr : Named right) (hs : SortedPtrs left right s) (hs' : SortedPtrs (Mirror.footPrint right) (Mirror.footPrint left) s')
    (hw : w.generateFromFootPrints left right t dT s = .ok (true, w1)) :
    ∃ w1', w'.generateFromFootPrints (Mirror.footPrint right) (Mirror.footPrint left) t dT s' = .ok (true, w1') ∧ WalkMirrored w1 w1' := by
  rw [Walker.ties (firsts hf) (named nr) (named nl) hs' (Mirror.sortedPtrs hs)]
  exact C93_mirror_partial hp h hs hw

/-- C93: a walk can be generated if and only if it can be generated in the mirror. -/
theorem C93_succeeds (hp : TrigParity K) (h : SettingsMirrored w w') (hs : SortedPtrs left right s) :
    (∃ w1, w.generateFromFootPrints left right t dT s = .ok (true, w1)) ↔
      ∃ w1', w'.generateFromFootPrints (Mirror.footPrint right) (Mirror.footPrint left) t dT (s.map Mirror.ptr) = .ok (true, w1') :=
  h.succeeds hp hs

private theorem history {sort sort' : Sorter K} (hp : TrigParity K) (hsort : ∀ l r, SortedPtrs l r (sort l r))
    (hsort' : ∀ l r, SortedPtrs l r (sort' l r)) (es : List (Op K ⊕ Footsteps K)) :
    ∀ {w w' : Walker K}, SettingsMirrored w w' →
      (∀ q, .inr q ∈ es → FirstContactsFirst q.left q.right ∧ Named q.left ∧ Named q.right) → ∀ w1, afterWalks sort w es = some w1 →
    ∃ w1', afterWalks sort' w' (es.map Mirror.event) = some w1' ∧ SettingsMirrored w1 w1' ∧
      (∀ q, es.getLast? = some (.inr q) → WalkMirrored w1 w1') := by
  induction es with
  | nil =>
    intro w w' h _ w1 h1
    cases h1
    exact ⟨w', rfl, h, fun q hq => by cases hq⟩
  | cons e es ih =>
    intro w w' h hq w1 h1
    have last : ∀ (x y : Walker K) (q : Footsteps K), (e :: es).getLast? = some (.inr q) → (es = [] → e = .inr q → WalkMirrored x y) →
        (∀ q, es.getLast? = some (.inr q) → WalkMirrored x y) → WalkMirrored x y := by
      intro x y q hl h1 h2
      cases es with
      | nil =>
        simp only [List.getLast?_singleton, Option.some.injEq] at hl
        exact h1 rfl hl
      | cons a l => rw [List.getLast?_cons_cons] at hl; exact h2 q hl
    cases e with
    | inl o =>
      obtain ⟨w1', h2, h3, h4⟩ := ih (h.run o) (fun q hm => hq q (List.mem_cons_of_mem _ hm)) w1 h1
      exact ⟨w1', h2, h3, fun q hl => last w1 w1' q hl (fun _ h => by cases h) h4⟩
    | inr q =>
      obtain ⟨q1, q2, q3⟩ := hq q List.mem_cons_self
      simp only [afterWalks] at h1
      cases hg : w.generateFromFootPrints q.left q.right q.initTime q.dT (sort q.left q.right) with
      | fail => rw [hg] at h1; cases h1
      | ub u => rw [hg] at h1; cases h1
      | ok r =>
        obtain ⟨b, w2⟩ := r
        cases b with
        | false => rw [hg] at h1; cases h1
        | true =>
          rw [hg] at h1
          simp only at h1
          obtain ⟨w2', hg', hm⟩ := C93_any_order_partial hp h q1 q2 q3 (hsort _ _) (hsort' _ _) hg
          obtain ⟨w1', h2, h3, h4⟩ := ih hm.settings (fun q hm => hq q (List.mem_cons_of_mem _ hm)) w1 h1
          refine ⟨w1', ?_, h3, fun q hl => last w1 w1' q hl (fun he _ => ?_) h4⟩
          · simp only [List.map_cons, Mirror.event, afterWalks, Mirror.footsteps, hg']
            exact h2
          · subst he
            cases h1
            cases h2
            exact hm

/-- C93: a whole history of settings and of walks, from the construction of the generators on; the last walk is the one of the mirror. -/
theorem C93_history_partial {sort sort' : Sorter K} (hp : TrigParity K) (hsort : ∀ l r, SortedPtrs l r (sort l r))
    (hsort' : ∀ l r, SortedPtrs l r (sort' l r)) (garbage : K) (es : List (Op K ⊕ Footsteps K))
    (hes : ∀ q, .inr q ∈ es → FirstContactsFirst q.left q.right ∧ Named q.left ∧ Named q.right) (w1 : Walker K)
    (h : afterWalks sort (Walker.new garbage) es = some w1) :
    ∃ w1', afterWalks sort' (Walker.new garbage) (es.map Mirror.event) = some w1' ∧
      (∀ q, es.getLast? = some (.inr q) → WalkMirrored w1 w1') := by
  obtain ⟨w1', h1, -, h2⟩ := history hp hsort hsort' es (SettingsMirrored.new garbage) hes w1 h
  exact ⟨w1', h1, h2⟩

end

/-- The real cosine and sine. -/
theorem C93_parity : TrigParity ℝ := ⟨fun x => by simp, fun x => by simp⟩

/-! ## What is false, and examples -/

section

/-- Rational stand-ins, good enough for examples that go straight ahead. -/
private local instance trigMirror : Trig ℚ :=
  ⟨fun _ => 1, fun _ => 0, fun q => Nat.sqrt (⌊q * 10 ^ 8⌋₊) / 10 ^ 4, fun x => 1 + x, fun _ => 0, fun _ _ => 0, 22 / 7⟩

private theorem parity : TrigParity ℚ := ⟨fun _ => rfl, fun _ => by simp [Trig.sin]⟩

private def l0 : Step ℚ := ⟨⟨0, 7 / 100⟩, 0, 0, "left"⟩
private def r0 : Step ℚ := ⟨⟨0, - 7 / 100⟩, 0, 0, "right"⟩
private def l1 : Step ℚ := ⟨⟨1 / 10, 7 / 100⟩, 0, 5, "left"⟩
private def setup : List (Op ℚ) := [.addCubic, .cubic (.setStepHeight (1 / 10)), .addMinJerk, .minJerk (.setStepHeight (1 / 10)),
  .addZmp ⟨⟨1, 2⟩, ⟨3, 4⟩, ⟨5, 6⟩, ⟨7, 8⟩, ⟨1, 1, 1⟩, false, l0, r0, false, []⟩,
  .addDcm, .addHeight, .height (1 / 2) (1 / 100), .zmp (.setStanceZMPDelta ⟨1 / 100, 1 / 50⟩ ⟨0, 1 / 100⟩), .dcm (.setDCMInitialState ⟨0, 10⟩ ⟨0, 0⟩)]
private def made : Walker ℚ := (Walker.new 0).runAll setup
private def madeMirror : Walker ℚ := (Walker.new 0).runAll (setup.map Mirror.op)

private theorem made_mirrored : SettingsMirrored made madeMirror := (SettingsMirrored.new 0).runAll setup

private def result (p : Walker ℚ → Bool) : Out (Bool × Walker ℚ) → Bool
  | .ok (true, w) => p w
  | _ => false

private theorem result_iff {p : Walker ℚ → Bool} {o : Out (Bool × Walker ℚ)} (h : result p o = true) : ∃ w, o = .ok (true, w) ∧ p w = true := by
  rcases o with ⟨_ | _, w⟩ | _ | _
  · cases h
  · exact ⟨w, rfl, h⟩
  · cases h
  · cases h

private theorem sorted_of {left right : FootPrint ℚ} {s : List (Ptr ℚ)} (h : (s.isPerm (Ptr.ofFeet left right) &&
    decide (s.Pairwise fun a b => a.step.impactTime ≤ b.step.impactTime)) = true) : SortedPtrs left right s := by
  rw [Bool.and_eq_true] at h
  exact ⟨List.isPerm_iff.mp h.1, of_decide_eq_true h.2⟩

/-- C93, the code: the phases of a robot that stands are not exchanged; it is always the left foot that is about to be lifted. -/
theorem C93_standing_witness : ∃ (w w' w1 w1' : Walker ℚ) (left right : FootPrint ℚ) (s : List (Ptr ℚ)), SettingsMirrored w w' ∧
    SortedPtrs left right s ∧ w.generateFromFootPrints left right 0 (1 / 2) s = .ok (true, w1) ∧
    w'.generateFromFootPrints (Mirror.footPrint right) (Mirror.footPrint left) 0 (1 / 2) (s.map Mirror.ptr) = .ok (true, w1') ∧
    w1.outputs.leftFixed = w1'.outputs.leftFixed ∧ w1.outputs.leftFixed ≠ [] ∧ w1.outputs.phases = w1'.outputs.phases := by
  obtain ⟨w1, h1, e1⟩ := result_iff (p := fun w => w.outputs.leftFixed == List.replicate 2 true &&
      w.outputs.phases == some (List.replicate 2 .switchOut, List.replicate 2 .switchIn))
    (o := made.generateFromFootPrints ⟨[l0], "left"⟩ ⟨[r0], "right"⟩ 0 (1 / 2) [⟨true, 0, l0⟩, ⟨false, 0, r0⟩]) (by decide +kernel)
  obtain ⟨w1', h2, e2⟩ := result_iff (p := fun w => w.outputs.leftFixed == List.replicate 2 true &&
      w.outputs.phases == some (List.replicate 2 .switchOut, List.replicate 2 .switchIn))
    (o := madeMirror.generateFromFootPrints (Mirror.footPrint ⟨[r0], "right"⟩) (Mirror.footPrint ⟨[l0], "left"⟩) 0 (1 / 2)
      ([⟨true, 0, l0⟩, ⟨false, 0, r0⟩].map Mirror.ptr)) (by decide +kernel)
  simp only [Bool.and_eq_true, beq_iff_eq] at e1 e2
  exact ⟨made, madeMirror, w1, w1', _, _, _, made_mirrored, sorted_of (by decide +kernel), h1, h2, by rw [e1.1, e2.1],
    by rw [e1.1]; decide, by rw [e1.2, e2.2]⟩

/-- C93, the code: the weights reported with the DCM in double support are not exchanged where the ZMP is not between the feet; all the
weight is on the right foot in both cases. -/
theorem C93_weights_witness : ∃ (w w' w1 w1' : Walker ℚ) (left right : FootPrint ℚ) (s : List (Ptr ℚ)), SettingsMirrored w w' ∧
    SortedPtrs left right s ∧ w.generateFromFootPrints left right 0 (1 / 2) s = .ok (true, w1) ∧
    w'.generateFromFootPrints (Mirror.footPrint right) (Mirror.footPrint left) 0 (1 / 2) (s.map Mirror.ptr) = .ok (true, w1') ∧
    (∃ p o p' o', w1.dcm = some p ∧ p.result = some o ∧ w1'.dcm = some p' ∧ p'.result = some o' ∧
      o.weights[0]? = some (0, 1) ∧ o'.weights[0]? = some (0, 1)) := by
  have key : ∀ w : Walker ℚ, (w.dcm.bind fun p => p.result.bind fun o => o.weights[0]?) = some (0, 1) →
      ∃ p o, w.dcm = some p ∧ p.result = some o ∧ o.weights[0]? = some ((0, 1) : ℚ × ℚ) := by
    intro w h
    obtain ⟨p, h1, h⟩ := Option.bind_eq_some_iff.mp h
    obtain ⟨o, h2, h⟩ := Option.bind_eq_some_iff.mp h
    exact ⟨p, o, h1, h2, h⟩
  obtain ⟨w1, h1, e1⟩ := result_iff (p := fun w => decide ((w.dcm.bind fun p => p.result.bind fun o => o.weights[0]?) = some (0, 1)))
    (o := made.generateFromFootPrints ⟨[l0], "left"⟩ ⟨[r0], "right"⟩ 0 (1 / 2) [⟨true, 0, l0⟩, ⟨false, 0, r0⟩]) (by decide +kernel)
  obtain ⟨w1', h2, e2⟩ := result_iff (p := fun w => decide ((w.dcm.bind fun p => p.result.bind fun o => o.weights[0]?) = some (0, 1)))
    (o := madeMirror.generateFromFootPrints (Mirror.footPrint ⟨[r0], "right"⟩) (Mirror.footPrint ⟨[l0], "left"⟩) 0 (1 / 2)
      ([⟨true, 0, l0⟩, ⟨false, 0, r0⟩].map Mirror.ptr)) (by decide +kernel)
  obtain ⟨p, o, a1, a2, a3⟩ := key w1 (of_decide_eq_true e1)
  obtain ⟨p', o', b1, b2, b3⟩ := key w1' (of_decide_eq_true e2)
  exact ⟨made, madeMirror, w1, w1', _, _, _, made_mirrored, sorted_of (by decide +kernel), h1, h2, p, o, p', o', a1, a2, b1, b2, a3, b3⟩

/-- Non-vacuity of C93: a walk with a step, all generators attached. -/
example : ∃ (w w' w1 : Walker ℚ) (left right : FootPrint ℚ) (s : List (Ptr ℚ)), TrigParity ℚ ∧ SettingsMirrored w w' ∧ SortedPtrs left right s ∧
    w.generateFromFootPrints left right 0 (1 / 2) s = .ok (true, w1) ∧ w1.dcm.isSome ∧ w1.zmp.isSome ∧ ¬ StandsTied left right := by
  obtain ⟨w1, h1, e1⟩ := result_iff (p := fun w => w.dcm.isSome && w.zmp.isSome)
    (o := made.generateFromFootPrints ⟨[l0, l1], "left"⟩ ⟨[r0], "right"⟩ 0 (1 / 2) [⟨true, 0, l0⟩, ⟨false, 0, r0⟩, ⟨true, 1, l1⟩])
    (by decide +kernel)
  simp only [Bool.and_eq_true] at e1
  refine ⟨made, madeMirror, w1, ⟨[l0, l1], "left"⟩, ⟨[r0], "right"⟩, _, parity, made_mirrored, sorted_of (by decide +kernel), h1, e1.1, e1.2, ?_⟩
  rintro ⟨a, b, h, -⟩
  cases h

end
end Uni.Spec
