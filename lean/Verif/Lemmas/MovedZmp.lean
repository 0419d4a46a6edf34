import Verif.Lemmas.MovedDcm

/-! # Displacements: the ZMP -/

set_option autoImplicit false
set_option linter.unusedSectionVars false

namespace Uni

namespace Out

/-- The outcomes correspond. -/
def Rel {α β : Type} (R : α → β → Prop) : Out α → Out β → Prop
  | .ok a, .ok b => R a b
  | .fail, .fail => True
  | .ub w, .ub w' => w' = w
  | _, _ => False

theorem Rel.of_map {α β : Type} {R : α → β → Prop} {f : α → β} {x : Out α} {y : Out β} (h : y = x.map f) (hf : ∀ a, R a (f a)) :
    Rel R x y := by
  subst h
  cases x
  · exact hf _
  · trivial
  · rfl

theorem Rel.bind {α β γ δ : Type} {R : α → β → Prop} {S : γ → δ → Prop} {x : Out α} {y : Out β} {k : α → Out γ}
    {k' : β → Out δ} (h : Rel R x y) (hk : ∀ a b, R a b → Rel S (k a) (k' b)) : Rel S (x >>= k) (y >>= k') := by
  cases x <;> cases y <;> try exact h.elim
  · exact hk _ _ h
  · trivial
  · exact h

theorem Rel.bind_same {α γ δ : Type} {S : γ → δ → Prop} {x : Out α} {k : α → Out γ} {k' : α → Out δ}
    (hk : ∀ a, Rel S (k a) (k' a)) : Rel S (x >>= k) (x >>= k') := by
  cases x
  · exact hk _
  · trivial
  · rfl

end Out

namespace Spec.Move
variable (g : Move)

theorem backTo (steps : List (Step ℝ)) (good good' : Step ℝ → Bool) (h : ∀ s, good' (g.step s) = good s) (i : Nat) :
    Zmp.backTo (steps.map g.step) good' i = Zmp.backTo steps good i := by
  induction i with
  | zero =>
    simp only [Zmp.backTo, List.getElem?_map]
    cases steps[0]? with
    | none => rfl
    | some s => simp only [Option.map_some, h]
  | succ i ih =>
    simp only [Zmp.backTo, List.getElem?_map, ih]
    cases steps[i + 1]? with
    | none => rfl
    | some s => simp only [Option.map_some, h]

theorem stepAt (steps : List (Step ℝ)) (name : String) (t : ℝ) (i : Nat) (s : Step ℝ) :
    Zmp.stepAt (steps.map g.step) name (t + g.delay) i (g.step s) = Zmp.stepAt steps name t i s := by
  unfold Zmp.stepAt
  rw [g.backTo steps (fun s => decide (s.footName = name ∧ ¬ t < s.impactTime))]
  · simp only [step_impactTime, add_lt_add_iff_right]
  · intro s; simp only [step_impactTime, add_lt_add_iff_right, step_footName]

theorem stepsUsed (steps : List (Step ℝ)) (name : String) (time : Nat → ℝ) : ∀ (n i : Nat),
    Zmp.stepsUsed (steps.map g.step) name (fun k => time k + g.delay) n i =
      (Zmp.stepsUsed steps name time n i).map (List.map g.step)
  | 0, _ => by simp only [Zmp.stepsUsed, Out.map_ok, List.map_nil]
  | n + 1, i => by
    simp only [Zmp.stepsUsed, List.getElem?_map]
    cases steps[i]? with
    | none => rfl
    | some s =>
      simp only [Option.map_some, stepAt, Out.map_bind]
      refine Out.bind_congr fun j => ?_
      cases steps[j]? with
      | none => rfl
      | some s =>
        simp only [Option.map_some, stepsUsed, Out.bind_map, Out.map_bind]
        exact Out.bind_congr fun l => by simp

theorem toWorld (s : Step ℝ) (z : Vec2 ℝ) : Zmp.toWorld (g.step s) z = g.point (Zmp.toWorld s z) := by
  simp only [Zmp.toWorld, step_position, step_angle, in_frame]

/-- Positions displaced. -/
def PosMoved (l l' : List (ZmpSample ℝ)) : Prop := l'.map ZmpSample.pos = (l.map ZmpSample.pos).map g.point

theorem worldFrom (ol or : Step ℝ) (dT : ℝ) (first : Nat) : ∀ (n : Nat) (zl zr : List (Motion2 ℝ)) (wl : List (Motion ℝ))
    (sl sr : List (Step ℝ)), Out.Rel g.PosMoved (Zmp.worldFrom ol or dT first n zl zr wl (Zmp.mirror wl) sl sr)
      (Zmp.worldFrom (g.step ol) (g.step or) dT first n zl zr wl (Zmp.mirror wl) (sl.map g.step) (sr.map g.step))
  | _, [], _, _, _, _ => by simp [Zmp.worldFrom, Out.Rel, PosMoved]
  | _, _ :: _, [], _, _, _ => by simp [Zmp.worldFrom, Out.Rel]
  | _, _ :: _, _ :: _, [], _, _ => by simp [Zmp.worldFrom, Zmp.mirror, Out.Rel]
  | _, _ :: _, _ :: _, _ :: _, [], _ => by simp [Zmp.worldFrom, Zmp.mirror, Out.Rel]
  | _, _ :: _, _ :: _, _ :: _, _ :: _, [] => by simp [Zmp.worldFrom, Zmp.mirror, Out.Rel]
  | n, z :: zl, z' :: zr, w :: wl, s :: sl, s' :: sr => by
    simp only [Zmp.mirror, List.map_cons, Zmp.worldFrom]
    refine Out.Rel.bind (worldFrom ol or dT first (n + 1) zl zr wl sl sr) fun l l' hl => ?_
    unfold PosMoved at hl
    simp only [Out.Rel, PosMoved, List.map_cons, hl, List.cons.injEq, and_true]
    split_ifs
    · simp only [Zmp.worldFirst, toWorld]
      ext <;> simp only [point, Vec2.add_x, Vec2.add_y, Vec2.sub_x, Vec2.sub_y, Vec2.smul_x, Vec2.smul_y] <;> ring
    · simp only [Zmp.worldAfter, toWorld]
      ext <;> simp only [point, Vec2.add_x, Vec2.add_y, Vec2.sub_x, Vec2.sub_y, Vec2.smul_x, Vec2.smul_y] <;> ring

theorem world (ol or : Step ℝ) (initTime dT : ℝ) (shifts : List Nat) (steps : List (Step ℝ)) (ln rn : String)
    (zl zr : List (Motion2 ℝ)) (wl : List (Motion ℝ)) :
    Out.Rel g.PosMoved (Zmp.world ol or initTime dT shifts steps ln rn zl zr wl (Zmp.mirror wl))
      (Zmp.world (g.step ol) (g.step or) (initTime + g.delay) dT shifts (steps.map g.step) ln rn zl zr wl
        (Zmp.mirror wl)) := by
  unfold Zmp.world
  cases shifts[1]? with
  | none => rfl
  | some first =>
    simp only [List.map_eq_nil_iff, List.length_map]
    split_ifs
    · rfl
    · have e : ∀ name, Zmp.backTo (steps.map g.step) (fun s => decide (s.footName = name)) =
          Zmp.backTo steps (fun s => decide (s.footName = name)) := fun name =>
        funext fun i => g.backTo steps _ _ (fun s => rfl) i
      have ht : (fun instant : Nat => (instant : ℝ) * dT + (initTime + g.delay)) =
          fun instant : Nat => (fun k : Nat => (k : ℝ) * dT + initTime) instant + g.delay := by
        funext k; ring
      simp only [e]
      refine Out.Rel.bind_same fun i => Out.Rel.bind_same fun j => ?_
      rw [ht, stepsUsed, stepsUsed, Out.bind_map]
      refine Out.Rel.bind_same fun sl => ?_
      rw [Out.bind_map]
      exact Out.Rel.bind_same fun sr => g.worldFrom ol or dT first 0 zl zr wl sl sr

end Spec.Move

namespace Spec

theorem ZmpStateMoved.new {g : Move} {z z' : Zmp ℝ} (h : ZmpStateMoved g z z') (cfg : GenSettings ℝ) (initTime dT : ℝ)
    (merges : List Nat) (left right : FootPrint ℝ) (ordered : List (Step ℝ)) (lp rp : List Phase) (shifts : List Nat) :
    Out.Rel (fun r r' => ZmpStateMoved g r.1 r'.1 ∧ ZmpOutMoved g r.2 r'.2)
      (z.computeNewTrajectories cfg initTime dT merges left right ordered lp rp shifts)
      (z'.computeNewTrajectories cfg (initTime + g.delay) dT merges (g.footPrint left) (g.footPrint right)
        (ordered.map g.step) lp rp shifts) := by
  unfold Zmp.computeNewTrajectories
  obtain ⟨h1, h2, h3, h4⟩ := h.offsets
  have hs : z'.start = z.start := by
    unfold Zmp.start
    rw [h.initial.1]
    split_ifs with hi
    · exact h.initial.2 hi
    · rfl
  have hp : z'.previousSteps (g.footPrint left) (g.footPrint right) =
      (z.previousSteps left right).map fun q => (g.step q.1, g.step q.2) := by
    unfold Zmp.previousSteps
    rw [h.previous.1]
    split_ifs with hi
    · rw [(h.previous.2 hi).1, (h.previous.2 hi).2]; rfl
    · simp only [Move.footPrint_steps]
      rcases left.steps with _ | ⟨l, ls⟩ <;> rcases right.steps with _ | ⟨r, rs⟩ <;> rfl
  rw [hp, Out.bind_map, hs, h1, h2, h3, h4, h.states]
  simp only [Move.footPrint_footName]
  refine Out.Rel.bind_same fun old => Out.Rel.bind_same fun wl => Out.Rel.bind_same fun states =>
    Out.Rel.bind_same fun zl => Out.Rel.bind_same fun zr => ?_
  refine Out.Rel.bind (g.world old.1 old.2 initTime dT shifts ordered left.footName right.footName zl zr wl) fun w w' hw => ?_
  refine ⟨⟨⟨rfl, rfl, rfl, rfl⟩, ⟨rfl, fun h => rfl⟩, ⟨rfl, fun h => ⟨rfl, rfl⟩⟩, rfl⟩, ⟨rfl, rfl, rfl, rfl, hw⟩⟩

end Spec
end Uni
