import Verif.Lemmas.MovedZmp

/-! # Displacements: trajectories for given footprints -/

set_option autoImplicit false
set_option linter.unusedSectionVars false

namespace Uni.Spec
variable {g : Move}

theorem run_moved {S T : Type} {R : Plugin S T → Plugin S T → Prop} {p p' : Option (Plugin S T)} (h : Both R p p')
    {f f' : S → Out (Bool × S × Option T)}
    (hf : ∀ q q', p = some q → R q q' → Out.Rel (fun r r' => r'.1 = r.1 ∧ R ⟨r.2.1, r.2.2⟩ ⟨r'.2.1, r'.2.2⟩) (f q.state) (f' q'.state))
    (h0 : ∀ q q', R q q' → R ⟨q.state, none⟩ ⟨q'.state, none⟩) :
    Out.Rel (fun r r' => r'.1 = r.1 ∧ Both R r.2 r'.2) (Plugin.run p f) (Plugin.run p' f') := by
  rcases p with _ | q <;> rcases p' with _ | q'
  · exact ⟨rfl, trivial⟩
  · exact h.elim
  · exact h.elim
  · have := hf q q' rfl h
    simp only [Plugin.run]
    rcases hx : f q.state with ⟨b, s, r⟩ | _ | why <;> rcases hy : f' q'.state with ⟨b', s', r'⟩ | _ | why' <;>
      rw [hx, hy] at this <;> try exact this.elim
    · exact this
    · exact ⟨rfl, h0 q q' h⟩
    · exact this

theorem WalkerMoved.trajectories {w w' : Walker ℝ} (h : WalkerMoved g w w') (hd : DcmStarts g w) (initTime dT : ℝ)
    (ordered : List (Ptr ℝ)) (t : Timing ℝ) :
    Out.Rel (fun r r' => r'.1 = r.1 ∧ WalkerMoved g r.2 r'.2) (w.trajectories initTime dT ordered t)
      (w'.trajectories (initTime + g.delay) dT (ordered.map g.ptr) (g.timing t)) := by
  unfold Walker.trajectories
  have hst : (ordered.map g.ptr).map Ptr.step = (ordered.map Ptr.step).map g.step := by
    simp only [List.map_map]; rfl
  refine Out.Rel.bind (run_moved h.cubic ?_ ?_) ?_
  · intro q q' _ hq
    refine Out.Rel.bind (Out.Rel.of_map (f := g.feet) (R := fun a b => b = g.feet a) ?_ fun _ => rfl) ?_
    · rw [h.garbage, h.left, h.right, hq.settings]
      exact g.cubic_feet _ _ _ _ _ _ _ _
    · rintro a _ rfl
      exact ⟨rfl, ⟨hq.settings, rfl⟩⟩
  · intro q q' hq
    exact ⟨hq.settings, rfl⟩
  rintro ⟨b, p1⟩ ⟨b', p1'⟩ ⟨hb, h1⟩
  cases hb
  simp only
  split_ifs
  · exact ⟨rfl, { h with cubic := h1 }⟩
  refine Out.Rel.bind (run_moved h.minJerk ?_ ?_) ?_
  · intro q q' _ hq
    refine Out.Rel.bind (Out.Rel.of_map (f := g.feet) (R := fun a b => b = g.feet a) ?_ fun _ => rfl) ?_
    · rw [h.left, h.right, hq.settings]
      exact g.minJerk_feet _ _ _ _ _ _ _
    · rintro a _ rfl
      exact ⟨rfl, ⟨hq.settings, rfl⟩⟩
  · intro q q' hq
    exact ⟨hq.settings, rfl⟩
  rintro ⟨b, p2⟩ ⟨b', p2'⟩ ⟨hb, h2⟩
  cases hb
  simp only
  split_ifs
  · exact ⟨rfl, { h with cubic := h1, minJerk := h2 }⟩
  refine Out.Rel.bind (run_moved h.zmp ?_ ?_) ?_
  · intro q q' _ hq
    rw [h.left, h.right, h.cfg]
    simp only [Walker.runZmp, hst]
    refine Out.Rel.bind (hq.settings.new _ _ _ _ _ _ _ _ _ _) ?_
    rintro a a' ⟨ha, ho⟩
    exact ⟨rfl, ⟨ha, ho⟩⟩
  · intro q q' hq
    exact ⟨hq.settings, trivial⟩
  rintro ⟨b, p3⟩ ⟨b', p3'⟩ ⟨hb, h3⟩
  cases hb
  simp only
  split_ifs
  · exact ⟨rfl, { h with cubic := h1, minJerk := h2, zmp := h3 }⟩
  refine Out.Rel.bind (run_moved h.dcm ?_ ?_) ?_
  · intro q q' hq0 hq
    refine Out.Rel.of_map (f := fun r => (r.1, g.dcmState r.2.1, r.2.2.map g.dcmOut)) ?_ ?_
    · rw [h.left, h.right, h.cfg, hq.settings]
      simp only [Walker.runDcm, hst]
      exact g.dcm_new q.state (hd q hq0) _ _ _ _ _ _ _ _
    · intro r
      exact ⟨rfl, ⟨rfl, rfl⟩⟩
  · intro q q' hq
    exact ⟨hq.settings, rfl⟩
  rintro ⟨b, p4⟩ ⟨b', p4'⟩ ⟨hb, h4⟩
  cases hb
  simp only
  split_ifs
  · exact ⟨rfl, { h with cubic := h1, minJerk := h2, zmp := h3, dcm := h4 }⟩
  rw [h.height]
  have e : Walker.runHeight dT (g.timing t) = Walker.runHeight dT t := rfl
  rw [e]
  refine Out.Rel.bind_same fun r => ?_
  exact ⟨rfl, { h with cubic := h1, minJerk := h2, zmp := h3, dcm := h4, height := rfl }⟩

theorem WalkerMoved.from {w w' : Walker ℝ} (h : WalkerMoved g w w') (hd : DcmStarts g w) (left right : FootPrint ℝ)
    (initTime dT : ℝ) (sorted : List (Ptr ℝ)) :
    Out.Rel (fun r r' => r'.1 = r.1 ∧ WalkerMoved g r.2 r'.2) (w.generateFromFootPrints left right initTime dT sorted)
      (w'.generateFromFootPrints (g.footPrint left) (g.footPrint right) (initTime + g.delay) dT (sorted.map g.ptr)) := by
  unfold Walker.generateFromFootPrints
  have hw : WalkerMoved g
      { w with left := left, right := right, outputs := Gen.outputsAfter w.cfg left right initTime dT sorted w.outputs }
      { w' with left := g.footPrint left, right := g.footPrint right,
                outputs := Gen.outputsAfter w'.cfg (g.footPrint left) (g.footPrint right) (initTime + g.delay) dT
                  (sorted.map g.ptr) w'.outputs } := by
    refine { h with left := rfl, right := rfl, outputs := ?_ }
    rw [h.cfg, h.outputs, Move.outputsAfter]
  simp only [h.cfg, Move.timeline] at hw ⊢
  rcases Gen.timeline w.cfg left right initTime dT sorted with ⟨o, t⟩ | _ | why
  · exact hw.trajectories hd initTime dT o t
  · exact ⟨rfl, hw⟩
  · rfl

end Uni.Spec
