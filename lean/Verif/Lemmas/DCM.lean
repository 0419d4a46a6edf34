import Verif.Lemmas.DCMPieces

/-! # How the trajectory of the DCM is put together -/

set_option autoImplicit false
set_option linter.unusedSectionVars false

namespace Uni
open Spec
namespace Dcm

variable {K : Type} [Field K] [LinearOrder K] [IsStrictOrderedRing K] [Trig K]

/-- The parts of a pause are not empty. -/
def PausePos (d : Dcm K) : Prop := d.pauseActive = true → 0 < d.endSwitch ∧ 0 < d.nominalSwitch

/-- The parts of a pause last at least a sample. -/
def PauseRoom (d : Dcm K) : Prop := d.pauseActive = true →
  d.dT ≤ d.endSwitch ∧ d.dT ≤ d.nominalSwitch ∧ d.endSwitch + d.nominalSwitch + d.dT ≤ d.maxSwitch

/-- A constructor of pieces that interpolates positions and velocities. -/
structure Interpolates (ω : K) (first : DcmPoint K → DcmPoint K → Piece K) : Prop where
  start : ∀ i f, (first i f).start = i.time
  stop : ∀ i f, (first i f).stop = f.time
  init : ∀ i f, (first i f).pos ω i.time = i.pos ∧ (first i f).vel ω i.time = i.vel
  final : ∀ i f, i.time ≠ f.time → (first i f).pos ω f.time = f.pos ∧ (first i f).vel ω f.time = f.vel

theorem interpolates_cubic (ω : K) : Interpolates ω (.cubic : DcmPoint K → DcmPoint K → Piece K) :=
  ⟨fun _ _ => rfl, fun _ _ => rfl, Piece.cubic_at_start ω, fun _ _ h => Piece.cubic_at_stop ω h⟩

theorem interpolates_first (ω : K) (d : Dcm K) : Interpolates ω d.firstPiece := by
  unfold firstPiece
  cases d.quintic with
  | false => exact interpolates_cubic ω
  | true => exact ⟨fun _ _ => rfl, fun _ _ => rfl, Piece.quintic_at_start ω, fun _ _ h => Piece.quintic_at_stop ω h⟩

theorem pauses_iff (d : Dcm K) (x : K) :
    d.pauses x = true ↔ d.pauseActive = true ∧ d.maxSwitch < x ∧ d.endSwitch + d.nominalSwitch < x := by
  simp [pauses, max_lt_iff]

/-- The pieces of a double support before the piece `q`. -/
theorem doubleSupport_spec {d : Dcm K} (hp : d.PausePos) {ω : K} {first : DcmPoint K → DcmPoint K → Piece K}
    (hf : Interpolates ω first) {init final : DcmPoint K} (hlt : init.time < final.time) (rest : Vec2 K)
    {q : Piece K} {tr : List (Piece K)} (hc : (q :: tr).IsChain (Joined ω)) (e1 : q.start = final.time)
    (e2 : q.pos ω final.time = final.pos) (e3 : q.vel ω final.time = final.vel) :
    ∃ p ps, d.doubleSupport first init final rest = p :: ps ∧ p.start = init.time ∧ p.pos ω init.time = init.pos ∧
      p.vel ω init.time = init.vel ∧ (p :: ps ++ q :: tr).IsChain (Joined ω) ∧ (∀ x ∈ p :: ps, x.start < x.stop) ∧
      (d.PauseRoom → init.time + d.dT ≤ final.time → ∀ x ∈ p :: ps, x.start + d.dT ≤ x.stop) := by
  unfold doubleSupport
  by_cases hpa : d.pauses (final.time - init.time) = true
  · rw [if_pos hpa]
    obtain ⟨h1, h2, h3⟩ := (d.pauses_iff _).mp hpa
    obtain ⟨p1, p2⟩ := hp h1
    have l1 : init.time ≠ init.time + d.endSwitch := by linarith [p1] |> fun (h : init.time < init.time + d.endSwitch) => h.ne
    have l3 : final.time - d.nominalSwitch ≠ final.time := ne_of_lt (by linarith)
    refine ⟨_, _, rfl, hf.start _ _, (hf.init _ _).1, (hf.init _ _).2, ?_, ?_, ?_⟩
    · have j1 := hf.final init ⟨init.time + d.endSwitch, rest, 0⟩ l1
      have j2 := Piece.cubic_at_rest ω (init.time + d.endSwitch) (final.time - d.nominalSwitch) rest
      have j3 := Piece.cubic_at_start ω ⟨final.time - d.nominalSwitch, rest, 0⟩ final
      have j4 := Piece.cubic_at_stop ω (i := ⟨final.time - d.nominalSwitch, rest, 0⟩) (f := final) l3
      simp only [List.cons_append, List.nil_append, List.isChain_cons_cons]
      refine ⟨⟨hf.stop _ _, ?_, ?_⟩, ⟨rfl, ?_, ?_⟩, ⟨e1.symm, ?_, ?_⟩, hc⟩
      · rw [hf.stop]; exact j1.1.trans (j2 _).1.symm
      · rw [hf.stop]; exact j1.2.trans (j2 _).2.symm
      · exact (j2 _).1.trans j3.1.symm
      · exact (j2 _).2.trans j3.2.symm
      · rw [e1]; exact j4.1.trans e2.symm
      · rw [e1]; exact j4.2.trans e3.symm
    · intro x hx
      simp only [List.mem_cons, List.not_mem_nil, or_false] at hx
      rcases hx with rfl | rfl | rfl
      · rw [hf.start, hf.stop]; show init.time < init.time + d.endSwitch; linarith
      · show init.time + d.endSwitch < final.time - d.nominalSwitch; linarith
      · show final.time - d.nominalSwitch < final.time; linarith
    · intro hr _ x hx
      obtain ⟨r1, r2, r3⟩ := hr h1
      simp only [List.mem_cons, List.not_mem_nil, or_false] at hx
      rcases hx with rfl | rfl | rfl
      · rw [hf.start, hf.stop]; show init.time + d.dT ≤ init.time + d.endSwitch; linarith
      · show init.time + d.endSwitch + d.dT ≤ final.time - d.nominalSwitch; linarith
      · show final.time - d.nominalSwitch + d.dT ≤ final.time; linarith
  · rw [if_neg hpa]
    refine ⟨_, _, rfl, hf.start _ _, (hf.init _ _).1, (hf.init _ _).2, ?_, ?_, ?_⟩
    · have j := hf.final init final hlt.ne
      simp only [List.cons_append, List.nil_append, List.isChain_cons_cons]
      refine ⟨⟨(hf.stop _ _).trans e1.symm, ?_, ?_⟩, hc⟩
      · rw [hf.stop, e1]; exact j.1.trans e2.symm
      · rw [hf.stop, e1]; exact j.2.trans e3.symm
    · intro x hx
      rw [List.mem_singleton] at hx; subst hx
      rw [hf.start, hf.stop]; exact hlt
    · intro _ hd x hx
      rw [List.mem_singleton] at hx; subst hx
      rw [hf.start, hf.stop]; exact hd

/-- What is known of the trajectory from a single support on.  `S` are the single supports (start, end, ZMP), `R` says that
all pieces last at least a sample. -/
structure Inv (d : Dcm K) (R : Prop) (e : K) (target bPos : Vec2 K) (S : List (K × K × Vec2 K)) (tr : List (Piece K)) : Prop where
  chain : tr.IsChain (Joined d.omega)
  head : ∃ s S' bt bp rest, S = s :: S' ∧ tr = .single s.1 s.2.1 s.2.2 bt bp :: rest ∧ rest ≠ []
  singles : ∀ s ∈ S, ∃ bt bp, .single s.1 s.2.1 s.2.2 bt bp ∈ tr
  rests : ∀ (i : Nat) (s s' : K × K × Vec2 K), S[i]? = some s → S[i + 1]? = some s' → d.pauses (s'.1 - s.2.1) = true →
    .cubic ⟨s.2.1 + d.endSwitch, middle s.2.2 s'.2.2, 0⟩ ⟨s'.1 - d.nominalSwitch, middle s.2.2 s'.2.2, 0⟩ ∈ tr
  meet : ∀ (i : Nat) (s s' : K × K × Vec2 K), S[i]? = some s → S[i + 1]? = some s' → ∃ bt bp bt' bp',
    .single s.1 s.2.1 s.2.2 bt bp ∈ tr ∧ .single s'.1 s'.2.1 s'.2.2 bt' bp' ∈ tr ∧
    (Piece.single s.1 s.2.1 s.2.2 bt bp).pos d.omega ((s'.1 + s.2.1) * d.alpha) =
      (Piece.single s'.1 s'.2.1 s'.2.2 bt' bp').pos d.omega ((s'.1 + s.2.1) * d.alpha) ∧
    (d.pauses (s'.1 - s.2.1) = false →
      .cubic ⟨s.2.1, (Piece.single s.1 s.2.1 s.2.2 bt bp).pos d.omega s.2.1, (Piece.single s.1 s.2.1 s.2.2 bt bp).vel d.omega s.2.1⟩
        ⟨s'.1, (Piece.single s'.1 s'.2.1 s'.2.2 bt' bp').pos d.omega s'.1,
          (Piece.single s'.1 s'.2.1 s'.2.2 bt' bp').vel d.omega s'.1⟩ ∈ tr)
  land : ∀ s, S.getLast? = some s → .single s.1 s.2.1 s.2.2 s.2.1 bPos ∈ tr
  brake : ∀ s, S.getLast? = some s → .cubic ⟨s.2.1, bPos, (Piece.single s.1 s.2.1 s.2.2 s.2.1 bPos).vel d.omega s.2.1⟩
    ⟨s.2.1 + (e - s.2.1) * (1 - d.stillness), target, 0⟩ ∈ tr
  last : ∃ a, tr.getLast? = some (.cubic ⟨a, target, 0⟩ ⟨e, target, 0⟩) ∧ a ≤ e ∧
    ∀ s, S.getLast? = some s → a = s.2.1 + (e - s.2.1) * (1 - d.stillness)
  fin : ∃ p ∈ tr, p.start < p.stop ∧ p.stop = e ∧ p.pos d.omega e = target ∧ p.vel d.omega e = 0
  strict : ∀ p ∈ tr.dropLast, p.start < p.stop
  long : R → ∀ p ∈ tr.dropLast, p.start + d.dT ≤ p.stop

theorem Inv.ne_nil {d : Dcm K} {R : Prop} {e : K} {target bP : Vec2 K} {S : List (K × K × Vec2 K)} {tr : List (Piece K)}
    (h : Inv d R e target bP S tr) : tr ≠ [] := by
  obtain ⟨s, S', bt, bp, rest, -, rfl, -⟩ := h.head; simp

theorem Inv.order {d : Dcm K} {R : Prop} {e : K} {target bP : Vec2 K} {S : List (K × K × Vec2 K)} {tr : List (Piece K)}
    (h : Inv d R e target bP S tr) : ∀ p ∈ tr, p.start ≤ p.stop := by
  intro p hp
  obtain ⟨a, h1, h2, -⟩ := h.last
  rw [← List.dropLast_append_getLast h.ne_nil, List.mem_append, List.mem_singleton] at hp
  rcases hp with hp | rfl
  · exact (h.strict p hp).le
  · rw [List.getLast?_eq_some_getLast h.ne_nil, Option.some.injEq] at h1
    rw [h1]; exact h2

/-- The last step. -/
theorem addLastStep_inv (hexp : Trig.exp (0 : K) = 1) {d : Dcm K} (hd : 0 < d.dT) {ssStart ssEnd dsEnd : K}
    (h1 : ssStart < ssEnd) (h2 : ssEnd < dsEnd) (hs0 : 0 ≤ d.stillness) (hs1 : d.stillness < 1) (z bPos target : Vec2 K) :
    ∃ tr, d.addLastStep ssStart ssEnd dsEnd z ssEnd bPos target = .ok tr ∧
      ∀ R : Prop, (R → ssStart + d.dT ≤ ssEnd) → (R → d.dT ≤ (dsEnd - ssEnd) * (1 - d.stillness)) →
        Inv d R dsEnd target bPos [(ssStart, ssEnd, z)] tr := by
  unfold addLastStep
  simp only
  have h3 : 0 < (dsEnd - ssEnd) * (1 - d.stillness) := mul_pos (by linarith) (by linarith)
  have h4 : 0 ≤ (dsEnd - ssEnd) * d.stillness := mul_nonneg (by linarith) hs0
  rw [Piece.state_ok (by rfl) (show ssStart - d.dT / 2 ≤ ssEnd by linarith) (show ssEnd ≤ ssEnd + d.dT / 2 by linarith), Out.bind_ok]
  refine ⟨_, rfl, fun R hR1 hR2 => ?_⟩
  have j0 : (Piece.single ssStart ssEnd z ssEnd bPos).pos d.omega ssEnd = bPos := by
    ext <;> simp [Piece.pos, hexp]
  have l1 : ssEnd ≠ ssEnd + (dsEnd - ssEnd) * (1 - d.stillness) := ne_of_lt (by linarith)
  have j1 := Piece.cubic_at_start d.omega ⟨ssEnd, bPos, (Piece.single ssStart ssEnd z ssEnd bPos).vel d.omega ssEnd⟩
    ⟨ssEnd + (dsEnd - ssEnd) * (1 - d.stillness), target, 0⟩
  have j2 := Piece.cubic_at_stop d.omega (i := ⟨ssEnd, bPos, (Piece.single ssStart ssEnd z ssEnd bPos).vel d.omega ssEnd⟩)
    (f := ⟨ssEnd + (dsEnd - ssEnd) * (1 - d.stillness), target, 0⟩) l1
  have j3 := Piece.cubic_at_rest d.omega (ssEnd + (dsEnd - ssEnd) * (1 - d.stillness)) dsEnd target
  refine ⟨?_, ⟨_, _, _, _, _, rfl, rfl, by simp⟩, ?_, ?_, ?_, ?_, ?_,
    ⟨ssEnd + (dsEnd - ssEnd) * (1 - d.stillness), rfl, by nlinarith, fun s hs => by
      simp only [List.getLast?_singleton, Option.some.injEq] at hs; subst hs; rfl⟩, ?_, ?_, ?_⟩
  · simp only [List.isChain_cons_cons]
    refine ⟨⟨rfl, j0.trans j1.1.symm, j1.2.symm⟩, ⟨rfl, j2.1.trans (j3 _).1.symm, j2.2.trans (j3 _).2.symm⟩, by simp⟩
  · intro s hs
    rw [List.mem_singleton] at hs; subst hs
    exact ⟨_, _, List.mem_cons_self⟩
  · intro i s s' _ hs'
    simp at hs'
  · intro i s s' _ hs'
    simp at hs'
  · intro s hs
    simp only [List.getLast?_singleton, Option.some.injEq] at hs; subst hs
    exact List.mem_cons_self
  · intro s hs
    simp only [List.getLast?_singleton, Option.some.injEq] at hs; subst hs
    exact List.mem_cons_of_mem _ List.mem_cons_self
  · rcases hs0.lt_or_eq with hs | hs
    · refine ⟨_, List.mem_cons_of_mem _ (List.mem_cons_of_mem _ List.mem_cons_self), ?_, rfl, j3 dsEnd⟩
      have := mul_pos (show 0 < dsEnd - ssEnd by linarith) hs
      show ssEnd + (dsEnd - ssEnd) * (1 - d.stillness) < dsEnd
      linarith
    · have e : ssEnd + (dsEnd - ssEnd) * (1 - d.stillness) = dsEnd := by rw [← hs]; ring
      refine ⟨_, List.mem_cons_of_mem _ List.mem_cons_self, ?_, e, ?_⟩
      · show ssEnd < ssEnd + (dsEnd - ssEnd) * (1 - d.stillness); linarith
      · rw [e] at j2 ⊢; exact j2
  · intro p hp
    simp only [List.dropLast_cons_cons, List.dropLast_singleton, List.mem_cons, List.not_mem_nil, or_false] at hp
    rcases hp with rfl | rfl
    · exact h1
    · show ssEnd < ssEnd + (dsEnd - ssEnd) * (1 - d.stillness); linarith
  · intro r p hp
    simp only [List.dropLast_cons_cons, List.dropLast_singleton, List.mem_cons, List.not_mem_nil, or_false] at hp
    rcases hp with rfl | rfl
    · exact hR1 r
    · show ssEnd + d.dT ≤ ssEnd + (dsEnd - ssEnd) * (1 - d.stillness); linarith [hR2 r]

/-- One more step. -/
theorem addNewStep_inv (hexp : Trig.exp (0 : K) = 1) {d : Dcm K} (hd : 0 < d.dT) (hp : d.PausePos) {R : Prop} {e : K} {target bP : Vec2 K}
    {s : K × K × Vec2 K} {S : List (K × K × Vec2 K)} {tr : List (Piece K)} (hi : Inv d R e target bP (s :: S) tr)
    {ssStart ssEnd : K} (h1 : ssStart < ssEnd) (h2 : ssEnd < s.1) (hR : R → d.PauseRoom)
    (hR1 : ssStart + d.dT ≤ ssEnd) (hR2 : ssEnd + d.dT ≤ s.1) (z : Vec2 K) (bTime : K) (bPos : Vec2 K)
    (hb : ∀ q qs, tr = q :: qs → bTime = (q.start + ssEnd) * d.alpha ∧ bPos = q.pos d.omega bTime) :
    ∃ tr', d.addNewStep ssStart ssEnd z bTime bPos tr = .ok tr' ∧ Inv d R e target bP ((ssStart, ssEnd, z) :: s :: S) tr' := by
  have hi' := hi
  obtain ⟨s', S', bt, bp, rest, hS, htr, hrest⟩ := hi.head
  cases hS
  subst htr
  have hlt : s.1 < s.2.1 := hi.strict (.single s.1 s.2.1 s.2.2 bt bp) (by
    obtain ⟨r, rs, rfl⟩ := List.exists_cons_of_ne_nil hrest
    rw [List.dropLast_cons_cons]; exact List.mem_cons_self)
  unfold addNewStep
  simp only [Piece.start]
  rw [Piece.state_ok (by rfl) (show ssStart - d.dT / 2 ≤ ssEnd by linarith) (show ssEnd ≤ ssEnd + d.dT / 2 by linarith), Out.bind_ok,
    Piece.state_ok (p := .single s.1 s.2.1 s.2.2 bt bp) (by rfl) (show s.1 - d.dT / 2 ≤ s.1 by linarith)
      (show s.1 ≤ s.2.1 + d.dT / 2 by linarith), Out.bind_ok]
  refine ⟨_, rfl, ?_⟩
  set p := Piece.single ssStart ssEnd z bTime bPos with hpdef
  set nx := Piece.single s.1 s.2.1 s.2.2 bt bp with hnx
  obtain ⟨q, qs, q1, q2, q3, q4, q5, q6, q7⟩ := doubleSupport_spec hp (interpolates_cubic d.omega)
    (init := ⟨ssEnd, p.pos d.omega ssEnd, p.vel d.omega ssEnd⟩) (final := ⟨s.1, nx.pos d.omega s.1, nx.vel d.omega s.1⟩)
    h2 (middle z (nx.zmp d.omega 0)) (q := nx) (tr := rest) hi.chain rfl rfl rfl
  have hdl : (p :: q :: qs ++ nx :: rest).dropLast = (p :: q :: qs) ++ (nx :: rest).dropLast :=
    List.dropLast_append_of_ne_nil (by simp)
  refine ⟨?_, ⟨_, _, _, _, _, rfl, rfl, ?_⟩, ?_, ?_, ?_, ?_, ?_, ?_, ?_, ?_, ?_⟩
  · show (p :: (d.doubleSupport _ _ _ _ ++ nx :: rest)).IsChain _
    erw [q1]
    rw [List.cons_append, List.isChain_cons_cons]
    exact ⟨⟨q2.symm, by rw [q2]; exact q3.symm, by rw [q2]; exact q4.symm⟩, q5⟩
  · erw [q1]; simp
  · intro x hx
    rcases List.mem_cons.mp hx with rfl | hx
    · exact ⟨bTime, bPos, List.mem_cons_self⟩
    · obtain ⟨bt', bp', hm⟩ := hi.singles x hx
      exact ⟨bt', bp', List.mem_append_right _ hm⟩
  · intro i x x' hx hx' hpa
    cases i with
    | zero =>
      simp only [List.getElem?_cons_zero, Option.some.injEq, Nat.zero_add, List.getElem?_cons_succ] at hx hx'
      subst hx; subst hx'
      refine List.mem_append_left _ (List.mem_cons_of_mem _ ?_)
      unfold doubleSupport
      have hpa' : d.pauses (s.1 - ssEnd) = true := hpa
      erw [if_pos hpa']
      show _ ∈ [_, _, _]
      exact List.mem_cons_of_mem _ List.mem_cons_self
    | succ i =>
      exact List.mem_append_right _ (hi.rests i x x' (by simpa using hx) (by simpa using hx') hpa)
  · intro i x x' hx hx'
    cases i with
    | zero =>
      simp only [List.getElem?_cons_zero, Option.some.injEq, Nat.zero_add, List.getElem?_cons_succ] at hx hx'
      subst hx; subst hx'
      refine ⟨bTime, bPos, bt, bp, List.mem_append_left _ List.mem_cons_self,
        List.mem_append_right _ List.mem_cons_self, ?_, ?_⟩
      · obtain ⟨b1, b2⟩ := hb nx rest rfl
        have b1 : bTime = (s.1 + ssEnd) * d.alpha := b1
        show _ = nx.pos d.omega ((s.1 + ssEnd) * d.alpha)
        rw [← b1, ← b2]
        ext <;> simp [Piece.pos, hexp]
      · intro hpa
        refine List.mem_append_left _ (List.mem_cons_of_mem _ ?_)
        unfold doubleSupport
        have hpa' : ¬d.pauses (s.1 - ssEnd) = true := by
          have hpa : d.pauses (s.1 - ssEnd) = false := hpa
          rw [hpa]; exact Bool.false_ne_true
        erw [if_neg hpa']
        exact List.mem_cons_self
    | succ i =>
      obtain ⟨a, b, a', b', c1, c2, c3, c4⟩ := hi.meet i x x' (by simpa using hx) (by simpa using hx')
      exact ⟨a, b, a', b', List.mem_append_right _ c1, List.mem_append_right _ c2, c3, fun h => List.mem_append_right _ (c4 h)⟩
  · intro x hx
    rw [List.getLast?_cons_cons] at hx
    exact List.mem_append_right _ (hi.land x hx)
  · intro x hx
    rw [List.getLast?_cons_cons] at hx
    exact List.mem_append_right _ (hi.brake x hx)
  · obtain ⟨a, a1, a2, a3⟩ := hi.last
    refine ⟨a, ?_, a2, fun x hx => a3 x (by rw [List.getLast?_cons_cons] at hx; exact hx)⟩
    show (p :: d.doubleSupport _ _ _ _ ++ nx :: rest).getLast? = _
    rw [List.getLast?_append_of_ne_nil _ (by simp)]
    exact a1
  · obtain ⟨x, x1, x2⟩ := hi.fin
    exact ⟨x, List.mem_append_right _ x1, x2⟩
  · intro x hx
    have hx : x ∈ (p :: (d.doubleSupport Piece.cubic ⟨ssEnd, p.pos d.omega ssEnd, p.vel d.omega ssEnd⟩
      ⟨s.1, nx.pos d.omega s.1, nx.vel d.omega s.1⟩ (middle z (nx.zmp d.omega 0))) ++ nx :: rest).dropLast := hx
    rw [q1, hdl, List.mem_append, List.mem_cons] at hx
    rcases hx with (rfl | hx) | hx
    · exact h1
    · exact q6 x hx
    · exact hi.strict x hx
  · intro r x hx
    have hx : x ∈ (p :: (d.doubleSupport Piece.cubic ⟨ssEnd, p.pos d.omega ssEnd, p.vel d.omega ssEnd⟩
      ⟨s.1, nx.pos d.omega s.1, nx.vel d.omega s.1⟩ (middle z (nx.zmp d.omega 0))) ++ nx :: rest).dropLast := hx
    rw [q1, hdl, List.mem_append, List.mem_cons] at hx
    rcases hx with (rfl | hx) | hx
    · exact hR1
    · exact q7 (hR r) hR2 x hx
    · exact hi.long r x hx

/-- The point of the ground under the foot of a step. -/
def zmpAt (d : Dcm K) (s : Step K) : Vec2 K := inWorld s (if s.footName = "left" then d.leftDelta else d.rightDelta)

theorem zmpOf_ok (d : Dcm K) {s : Step K} (h : s.footName = "left" ∨ s.footName = "right") : d.zmpOf s = .ok (d.zmpAt s) := by
  unfold zmpOf zmpAt inWorld
  rcases h with h | h <;> simp [h]

/-- The single supports of a walk, from the last one. -/
def slotsRev (d : Dcm K) : List Nat → List (Step K) → List (K × K × Vec2 K)
  | e :: s :: x :: shifts, step :: steps => ((s : K) * d.dT, (e : K) * d.dT, d.zmpAt step) :: slotsRev d (x :: shifts) steps
  | _, _ => []

theorem mul_step {x : K} (hx : 0 < x) {a b : Nat} (h : a < b) : (a : K) * x + x ≤ (b : K) * x := by
  have : ((a : K) + 1) * x ≤ (b : K) * x := mul_le_mul_of_nonneg_right (by exact_mod_cast h) hx.le
  linarith

theorem addSteps_inv (hexp : Trig.exp (0 : K) = 1) {d : Dcm K} (hd : 0 < d.dT) (hp : d.PausePos) {R : Prop} {e : K} {target bP : Vec2 K} (hR : R → d.PauseRoom)
    (m : Nat) (L : List Nat) (steps : List (Step K)) (s : K × K × Vec2 K) (S : List (K × K × Vec2 K)) (tr : List (Piece K))
    (hi : Inv d R e target bP (s :: S) tr) (hL : L.Pairwise (· > ·)) (hlen : L.length = 2 * m + 1) (hm : m ≤ steps.length)
    (hx : ∀ x, L.head? = some x → (x : K) * d.dT + d.dT ≤ s.1) (hn : ∀ s ∈ steps, s.footName = "left" ∨ s.footName = "right") :
    ∃ tr' s' S', d.addSteps L steps tr = .ok tr' ∧ Inv d R e target bP (s' :: S') tr' ∧
      s' :: S' = (d.slotsRev L steps).reverse ++ s :: S ∧ ((L.getLastD 0 : Nat) : K) * d.dT + d.dT ≤ s'.1 := by
  induction m generalizing L steps s S tr with
  | zero =>
    match L, hlen with
    | [x], _ =>
      refine ⟨tr, s, S, by simp [addSteps], hi, by simp [slotsRev], ?_⟩
      simpa using hx x rfl
  | succ m ih =>
    match L, hlen, steps, hm with
    | e' :: s0 :: x :: L', hlen, st :: steps, hm =>
      simp only [List.pairwise_cons] at hL
      have g1 : s0 < e' := hL.1 s0 (by simp)
      have g2 : x < s0 := hL.2.1 x (by simp)
      have g3 := hx e' rfl
      obtain ⟨n, S', bt, bp, rest, hS, htr, -⟩ := hi.head
      cases hS
      have k1 := mul_step hd g1
      have k2 := mul_step hd g2
      obtain ⟨tr', t1, t2⟩ := addNewStep_inv hexp hd hp hi (ssStart := (s0 : K) * d.dT) (ssEnd := (e' : K) * d.dT) (by linarith)
        (by linarith) hR k1 g3 (d.zmpAt st) ((s.1 + (e' : K) * d.dT) * d.alpha)
        ((Piece.single s.1 s.2.1 s.2.2 bt bp).pos d.omega ((s.1 + (e' : K) * d.dT) * d.alpha))
        (fun q qs hq => by rw [htr] at hq; cases hq; exact ⟨rfl, rfl⟩)
      obtain ⟨tr'', s'', S'', u1, u2, u3, u4⟩ := ih (x :: L') steps _ _ tr' t2
        (by simp only [List.pairwise_cons]; exact hL.2.2) (by simp at hlen ⊢; omega) (by simp at hm; omega)
        (fun y hy => by simp at hy; subst hy; exact k2) (fun s hs => hn s (List.mem_cons_of_mem _ hs))
      refine ⟨tr'', s'', S'', ?_, u2, ?_, ?_⟩
      · rw [htr]
        simp only [addSteps]
        rw [zmpOf_ok d (hn st List.mem_cons_self), Out.bind_ok]
        rw [htr] at t1
        simp only [Piece.start]
        rw [t1, Out.bind_ok, u1]
      · rw [u3]; simp [slotsRev]
      · simpa using u4

theorem slotsRev_get (d : Dcm K) (L : List Nat) (steps : List (Step K)) (i : Nat) (e s : Nat) (st : Step K)
    (h1 : L[2 * i]? = some e) (h2 : L[2 * i + 1]? = some s) (h3 : 2 * i + 2 < L.length) (h4 : steps[i]? = some st) :
    (d.slotsRev L steps)[i]? = some ((s : K) * d.dT, (e : K) * d.dT, d.zmpAt st) := by
  induction i generalizing L steps with
  | zero =>
    match L, steps with
    | e' :: s' :: x :: L, st' :: steps =>
      simp at h1 h2 h4
      subst h1; subst h2; subst h4
      simp [slotsRev]
    | e' :: s' :: x :: L, [] => simp at h4
    | [], _ => simp at h3
    | [_], _ => simp at h3
    | [_, _], _ => simp at h3
  | succ i ih =>
    match L, steps with
    | e' :: s' :: x :: L, st' :: steps =>
      simp only [slotsRev, List.getElem?_cons_succ]
      refine ih (x :: L) steps ?_ ?_ (by simp at h3 ⊢; omega) (by simpa using h4)
      · rw [show 2 * (i + 1) = 2 * i + 1 + 1 by omega] at h1; simpa using h1
      · rw [show 2 * (i + 1) + 1 = 2 * i + 1 + 1 + 1 by omega] at h2; simpa using h2
    | e' :: s' :: x :: L, [] => simp at h4
    | [], _ => simp at h3
    | [_], _ => simp at h3
    | [_, _], _ => simp at h3

theorem slotsRev_length (d : Dcm K) (m : Nat) (L : List Nat) (steps : List (Step K)) (h : L.length = 2 * m + 1) (hm : m ≤ steps.length) :
    (d.slotsRev L steps).length = m := by
  induction m generalizing L steps with
  | zero =>
    match L, h with
    | [x], _ => simp [slotsRev]
  | succ m ih =>
    match L, h, steps, hm with
    | e' :: s' :: x :: L, h, st :: steps, hm =>
      simp only [slotsRev, List.length_cons]
      rw [ih (x :: L) steps (by simp at h ⊢; omega) (by simpa using hm)]

/-- What is known of a whole trajectory: `z0` is the ZMP of the foot that swings first, `bPos` the DCM at the end of the last
single support. -/
structure Whole (d : Dcm K) (R : Prop) (init : Vec2 K × Vec2 K) (z0 : Vec2 K) (e : K) (target bPos : Vec2 K)
    (S : List (K × K × Vec2 K)) (tr : List (Piece K)) : Prop where
  chain : tr.IsChain (Joined d.omega)
  first : ∃ p ps, tr = p :: ps ∧ p.start = 0 ∧ p.finite = true ∧ p.pos d.omega 0 = init.1 ∧ p.vel d.omega 0 = init.2
  singles : ∀ s ∈ S, ∃ bt bp, .single s.1 s.2.1 s.2.2 bt bp ∈ tr
  begun : ∀ s S', S = s :: S' → d.pauses s.1 = false → ∃ bt bp, .single s.1 s.2.1 s.2.2 bt bp ∈ tr ∧
    d.firstPiece ⟨0, init.1, init.2⟩ ⟨s.1, (Piece.single s.1 s.2.1 s.2.2 bt bp).pos d.omega s.1,
      (Piece.single s.1 s.2.1 s.2.2 bt bp).vel d.omega s.1⟩ ∈ tr
  rest0 : ∀ s S', S = s :: S' → d.pauses s.1 = true →
    .cubic ⟨d.endSwitch, middle z0 s.2.2, 0⟩ ⟨s.1 - d.nominalSwitch, middle z0 s.2.2, 0⟩ ∈ tr
  rests : ∀ (i : Nat) (s s' : K × K × Vec2 K), S[i]? = some s → S[i + 1]? = some s' → d.pauses (s'.1 - s.2.1) = true →
    .cubic ⟨s.2.1 + d.endSwitch, middle s.2.2 s'.2.2, 0⟩ ⟨s'.1 - d.nominalSwitch, middle s.2.2 s'.2.2, 0⟩ ∈ tr
  meet : ∀ (i : Nat) (s s' : K × K × Vec2 K), S[i]? = some s → S[i + 1]? = some s' → ∃ bt bp bt' bp',
    .single s.1 s.2.1 s.2.2 bt bp ∈ tr ∧ .single s'.1 s'.2.1 s'.2.2 bt' bp' ∈ tr ∧
    (Piece.single s.1 s.2.1 s.2.2 bt bp).pos d.omega ((s'.1 + s.2.1) * d.alpha) =
      (Piece.single s'.1 s'.2.1 s'.2.2 bt' bp').pos d.omega ((s'.1 + s.2.1) * d.alpha) ∧
    (d.pauses (s'.1 - s.2.1) = false →
      .cubic ⟨s.2.1, (Piece.single s.1 s.2.1 s.2.2 bt bp).pos d.omega s.2.1, (Piece.single s.1 s.2.1 s.2.2 bt bp).vel d.omega s.2.1⟩
        ⟨s'.1, (Piece.single s'.1 s'.2.1 s'.2.2 bt' bp').pos d.omega s'.1,
          (Piece.single s'.1 s'.2.1 s'.2.2 bt' bp').vel d.omega s'.1⟩ ∈ tr)
  land : ∀ s, S.getLast? = some s → .single s.1 s.2.1 s.2.2 s.2.1 bPos ∈ tr
  brake : ∀ s, S.getLast? = some s → .cubic ⟨s.2.1, bPos, (Piece.single s.1 s.2.1 s.2.2 s.2.1 bPos).vel d.omega s.2.1⟩
    ⟨s.2.1 + (e - s.2.1) * (1 - d.stillness), target, 0⟩ ∈ tr
  last : ∃ p, tr.getLast? = some p ∧ p.stop = e
  still : ∀ s, S.getLast? = some s →
    .cubic ⟨s.2.1 + (e - s.2.1) * (1 - d.stillness), target, 0⟩ ⟨e, target, 0⟩ ∈ tr
  fin : ∃ p ∈ tr, p.start < p.stop ∧ p.stop = e ∧ p.pos d.omega e = target ∧ p.vel d.omega e = 0
  order : ∀ p ∈ tr, p.start ≤ p.stop
  strict : ∀ p ∈ tr.dropLast, p.start < p.stop
  long : R → ∀ p ∈ tr.dropLast, p.start + d.dT ≤ p.stop

/-- The first double support. -/
theorem addFirst_whole {d : Dcm K} (hd : 0 < d.dT) (hp : d.PausePos) {R : Prop} {e : K} {target bP : Vec2 K}
    {s : K × K × Vec2 K} {S : List (K × K × Vec2 K)} {tr : List (Piece K)} (hi : Inv d R e target bP (s :: S) tr)
    (hR : R → d.PauseRoom) (h0 : d.dT ≤ s.1) (init : Vec2 K × Vec2 K) {fs : Step K}
    (hn : fs.footName = "left" ∨ fs.footName = "right") :
    ∃ tr', d.addFirst ⟨0, init.1, init.2⟩ fs tr = .ok tr' ∧ Whole d R init (d.zmpAt fs) e target bP (s :: S) tr' := by
  obtain ⟨s', S', bt, bp, rest, hS, htr, hrest⟩ := hi.head
  cases hS
  subst htr
  have hlt : s.1 < s.2.1 := hi.strict (.single s.1 s.2.1 s.2.2 bt bp) (by
    obtain ⟨r, rs, rfl⟩ := List.exists_cons_of_ne_nil hrest
    rw [List.dropLast_cons_cons]; exact List.mem_cons_self)
  set nx := Piece.single s.1 s.2.1 s.2.2 bt bp with hnx
  obtain ⟨q, qs, q1, q2, q3, q4, q5, q6, q7⟩ := doubleSupport_spec hp (interpolates_first d.omega d)
    (init := ⟨0, init.1, init.2⟩) (final := ⟨s.1, nx.pos d.omega s.1, nx.vel d.omega s.1⟩)
    (show (0 : K) < s.1 by linarith) (middle (d.zmpAt fs) s.2.2) (q := nx) (tr := rest) hi.chain rfl rfl rfl
  have hdl : (q :: qs ++ nx :: rest).dropLast = (q :: qs) ++ (nx :: rest).dropLast :=
    List.dropLast_append_of_ne_nil (by simp)
  refine ⟨q :: qs ++ nx :: rest, ?_, q5, ⟨q, _, rfl, q2, Piece.finite_of_lt (q6 q List.mem_cons_self), q3, q4⟩, ?_, ?_, ?_, ?_, ?_,
    ?_, ?_, ?_, ?_, ?_, ?_, ?_, ?_⟩
  · unfold addFirst
    simp only
    rw [Piece.state_ok (p := nx) (t := nx.start) (by rfl) (show s.1 - d.dT / 2 ≤ s.1 by linarith)
      (show s.1 ≤ s.2.1 + d.dT / 2 by linarith), Out.bind_ok, ← q1]
    unfold doubleSupport
    by_cases hpa : d.pauses (s.1 - 0) = true
    · erw [if_pos hpa, if_pos hpa]
      rw [zmpOf_ok d hn, Out.bind_ok]
      rfl
    · erw [if_neg hpa, if_neg hpa]
      rfl
  · intro x hx
    obtain ⟨a, b, hm⟩ := hi.singles x hx
    exact ⟨a, b, List.mem_append_right _ hm⟩
  · intro x S' hx hpa
    cases hx
    refine ⟨bt, bp, List.mem_append_right _ List.mem_cons_self, List.mem_append_left _ ?_⟩
    rw [← q1]
    unfold doubleSupport
    have hpa' : ¬d.pauses (s.1 - 0) = true := by rw [sub_zero, hpa]; exact Bool.false_ne_true
    erw [if_neg hpa']
    exact List.mem_cons_self
  · intro x S' hx hpa
    cases hx
    refine List.mem_append_left _ ?_
    rw [← q1]
    unfold doubleSupport
    have hpa' : d.pauses (s.1 - 0) = true := by rw [sub_zero]; exact hpa
    erw [if_pos hpa']
    have : (Piece.cubic ⟨d.endSwitch, middle (d.zmpAt fs) s.2.2, 0⟩ ⟨s.1 - d.nominalSwitch, middle (d.zmpAt fs) s.2.2, 0⟩ : Piece K) =
      .cubic ⟨0 + d.endSwitch, middle (d.zmpAt fs) s.2.2, 0⟩ ⟨s.1 - d.nominalSwitch, middle (d.zmpAt fs) s.2.2, 0⟩ := by
      rw [zero_add]
    rw [this]
    show _ ∈ [_, _, _]
    exact List.mem_cons_of_mem _ List.mem_cons_self
  · intro i x x' hx hx' hpa
    exact List.mem_append_right _ (hi.rests i x x' hx hx' hpa)
  · intro i x x' hx hx'
    obtain ⟨a, b, a', b', c1, c2, c3, c4⟩ := hi.meet i x x' hx hx'
    exact ⟨a, b, a', b', List.mem_append_right _ c1, List.mem_append_right _ c2, c3, fun h => List.mem_append_right _ (c4 h)⟩
  · intro x hx
    exact List.mem_append_right _ (hi.land x hx)
  · intro x hx
    exact List.mem_append_right _ (hi.brake x hx)
  · obtain ⟨a, a1, -, -⟩ := hi.last
    refine ⟨.cubic ⟨a, target, 0⟩ ⟨e, target, 0⟩, ?_, rfl⟩
    rw [List.getLast?_append_of_ne_nil _ (by simp)]
    exact a1
  · intro x hx
    obtain ⟨a, a1, -, a3⟩ := hi.last
    rw [← a3 x hx]
    exact List.mem_append_right _ (List.mem_of_getLast? a1)
  · obtain ⟨p, p1, p2⟩ := hi.fin
    exact ⟨p, List.mem_append_right _ p1, p2⟩
  · intro x hx
    rcases List.mem_append.mp hx with hx | hx
    · exact (q6 x hx).le
    · exact hi.order x hx
  · intro x hx
    rw [hdl, List.mem_append] at hx
    rcases hx with hx | hx
    · exact q6 x hx
    · exact hi.strict x hx
  · intro r x hx
    rw [hdl, List.mem_append] at hx
    rcases hx with hx | hx
    · exact q7 (hR r) (show 0 + d.dT ≤ s.1 by linarith) x hx
    · exact hi.long r x hx

/-- A robot that stands. -/
theorem stand_whole {d : Dcm K} (hd : 0 < d.dT) (R : Prop) {n : Nat} (hn : 0 < n) {a b : Step K}
    (ha : a.footName = "left" ∨ a.footName = "right") (hb : b.footName = "left" ∨ b.footName = "right")
    (init : Vec2 K × Vec2 K) (z0 bPos : Vec2 K) :
    ∃ tr, d.standPieces 0 n a b init = .ok tr ∧
      Whole d R init z0 ((n : K) * d.dT) (middle (d.zmpAt a) (d.zmpAt b)) bPos [] tr := by
  unfold standPieces
  rw [zmpOf_ok d ha, Out.bind_ok, zmpOf_ok d hb, Out.bind_ok]
  have hT : (0 : K) < (n : K) * d.dT := mul_pos (by exact_mod_cast hn) hd
  refine ⟨_, rfl, by simp, ?_, by simp, by simp, by simp, by simp, by simp, by simp, by simp, ⟨_, rfl, rfl⟩, by simp, ?_, ?_, by simp, by simp⟩
  · have := Piece.cubic_at_start d.omega ⟨((0 : Nat) : K) * d.dT, init.1, init.2⟩ ⟨(n : K) * d.dT, middle (d.zmpAt a) (d.zmpAt b), 0⟩
    simp only [Nat.cast_zero, zero_mul] at this ⊢
    exact ⟨_, _, rfl, rfl, Piece.finite_of_lt hT, this⟩
  · refine ⟨_, List.mem_cons_self, ?_, rfl, Piece.cubic_at_stop d.omega ?_⟩
    · show ((0 : Nat) : K) * d.dT < _
      simp only [Nat.cast_zero, zero_mul]; exact hT
    · simp only [Nat.cast_zero, zero_mul]; exact hT.ne
  · intro p hp
    rw [List.mem_singleton] at hp; subst hp
    show ((0 : Nat) : K) * d.dT ≤ (n : K) * d.dT
    simp only [Nat.cast_zero, zero_mul]; exact hT.le

/-- The single supports of a walk, in the order of time. -/
def slots (d : Dcm K) (shifts : List Nat) (ordered : List (Step K)) : List (K × K × Vec2 K) :=
  (d.slotsRev shifts.reverse.tail ordered.reverse.tail).reverse

theorem slots_get (d : Dcm K) {shifts : List Nat} {ordered : List (Step K)} {n : Nat} (h1 : shifts.length = 2 * n + 2)
    (h2 : ordered.length = n + 2) {k : Nat} (hk : k < n) {a b : Nat} {s : Step K} (ha : shifts[2 * k + 1]? = some a)
    (hb : shifts[2 * k + 2]? = some b) (hs : ordered[k + 1]? = some s) :
    (d.slots shifts ordered).length = n ∧
    (d.slots shifts ordered)[k]? = some ((a : K) * d.dT, (b : K) * d.dT, d.zmpAt s) := by
  have hl : (d.slotsRev shifts.reverse.tail ordered.reverse.tail).length = n :=
    slotsRev_length d n _ _ (by simp [h1]) (by simp [h2])
  have g : ∀ j, j ≤ 2 * n → shifts.reverse.tail[2 * n - j]? = shifts[j]? := by
    intro j hj
    rw [List.getElem?_tail, List.getElem?_reverse (by omega)]
    congr 1; omega
  have g' : ∀ j, j ≤ n → ordered.reverse.tail[n - j]? = ordered[j]? := by
    intro j hj
    rw [List.getElem?_tail, List.getElem?_reverse (by omega)]
    congr 1; omega
  refine ⟨by unfold slots; rw [List.length_reverse, hl], ?_⟩
  unfold slots
  rw [List.getElem?_reverse (by rw [hl]; exact hk), hl]
  refine slotsRev_get d _ _ _ b a s ?_ ?_ ?_ ?_
  · rw [show 2 * (n - 1 - k) = 2 * n - (2 * k + 2) by omega, g _ (by omega), hb]
  · rw [show 2 * (n - 1 - k) + 1 = 2 * n - (2 * k + 1) by omega, g _ (by omega), ha]
  · simp [h1]; omega
  · rw [show n - 1 - k = n - (k + 1) by omega, g' _ (by omega), hs]

/-- A robot that walks. -/
theorem walk_whole (hexp : Trig.exp (0 : K) = 1) {d : Dcm K} (hd : 0 < d.dT) (hp : d.PausePos) (hs0 : 0 ≤ d.stillness)
    (hs1 : d.stillness < 1) {R : Prop} (hR : R → d.PauseRoom) {shifts : List Nat} {ordered : List (Step K)} {n : Nat}
    (h1 : shifts.length = 2 * n + 2) (h2 : ordered.length = n + 2) (hn : 0 < n) (hpos : shifts.Pairwise (· < ·))
    {b c : Nat} (hb : shifts[2 * n]? = some b) (hc : shifts[2 * n + 1]? = some c)
    (hRf : R → d.dT ≤ ((c : K) * d.dT - (b : K) * d.dT) * (1 - d.stillness))
    {x y u v : Step K} (ex : ordered[n]? = some x) (ey : ordered[n + 1]? = some y) (eu : ordered[0]? = some u) (ev : ordered[1]? = some v)
    (hnm : ∀ s ∈ ordered, s.footName = "left" ∨ s.footName = "right") {phases : List Phase} {p : Phase} (hph : phases[0]? = some p)
    (init : Vec2 K × Vec2 K) :
    ∃ tr, d.walkPieces shifts.reverse ordered.reverse phases ordered init = .ok tr ∧
      Whole d R init (d.zmpAt (firstSwing p u v)) ((c : K) * d.dT) (middle (d.zmpAt y) (d.zmpAt x))
        ((1 - d.lastOffset) * d.zmpAt x + d.lastOffset * d.zmpAt y) (d.slots shifts ordered) tr := by
  have hlen : shifts.reverse.length = 2 * n + 2 := by simp [h1]
  have hrev : shifts.reverse.Pairwise (· > ·) := by rw [List.pairwise_reverse]; exact hpos
  have g : ∀ j, j < 2 * n + 2 → shifts.reverse[j]? = shifts[2 * n + 1 - j]? := fun j hj => by
    rw [List.getElem?_reverse (by omega)]; congr 1; omega
  have g' : ∀ j, j < n + 2 → ordered.reverse[j]? = ordered[n + 1 - j]? := fun j hj => by
    rw [List.getElem?_reverse (by omega)]; congr 1; omega
  unfold walkPieces slots
  generalize hsh : shifts.reverse = sh at *
  generalize hst : ordered.reverse = st at *
  match sh, st, ordered with
  | dsEnd :: ssEnd :: ssStart :: x0 :: rest, last :: other :: steps, a :: b' :: os =>
    have f1 := g 0 (by omega)
    have f2 := g 1 (by omega)
    have f3 := g' 0 (by omega)
    have f4 := g' 1 (by omega)
    rw [Nat.sub_zero] at f1 f3
    rw [Nat.add_sub_cancel] at f2 f4
    rw [hc] at f1; rw [hb] at f2; rw [ey] at f3; rw [ex] at f4
    simp only [List.getElem?_cons_zero, List.getElem?_cons_succ] at f1 f2 f3 f4 eu ev
    cases f1; cases f2; cases f3; cases f4; cases eu; cases ev
    have hm : ∀ s ∈ y :: x :: steps, s.footName = "left" ∨ s.footName = "right" := fun s hs =>
      hnm s (by rw [← hst] at hs; exact List.mem_reverse.mp hs)
    have hsteps : steps.length = n := by
      have := congrArg List.length hst
      simp at this h2; omega
    simp only [List.pairwise_cons] at hrev
    obtain ⟨r1, r2, r3, r4⟩ := hrev
    have k1 := mul_step (K := K) hd (r1 b (by simp))
    have k2 := mul_step (K := K) hd (r2 ssStart (by simp))
    have k3 := mul_step (K := K) hd (r3 x0 (by simp))
    simp only
    rw [zmpOf_ok d (hm y (by simp)), Out.bind_ok, zmpOf_ok d (hm x (by simp)), Out.bind_ok]
    obtain ⟨tr, t1, t2⟩ := addLastStep_inv hexp hd (ssStart := (ssStart : K) * d.dT) (ssEnd := (b : K) * d.dT)
      (dsEnd := (c : K) * d.dT) (by linarith) (by linarith) hs0 hs1 (d.zmpAt x)
      ((1 - d.lastOffset) * d.zmpAt x + d.lastOffset * d.zmpAt y) (middle (d.zmpAt y) (d.zmpAt x))
    have t2 := t2 R (fun _ => k2) hRf
    obtain ⟨tr', s', S', u1, u2, u3, u4⟩ := addSteps_inv hexp hd hp hR (n - 1) (x0 :: rest) steps _ _ tr t2
      (by simp only [List.pairwise_cons]; exact r4) (by simp at hlen ⊢; omega) (by omega)
      (fun y hy => by simp at hy; subst hy; exact k3) (fun s hs => hm s (by simp [hs]))
    have h0 : d.dT ≤ s'.1 := by
      have : (0 : K) ≤ (((x0 :: rest).getLastD 0 : Nat) : K) * d.dT := mul_nonneg (Nat.cast_nonneg _) hd.le
      linarith
    obtain ⟨tr'', v1, v2⟩ := addFirst_whole hd hp u2 hR h0 init (fs := firstSwing p u v) (by
      unfold firstSwing
      split_ifs
      exacts [hnm u (by simp), hnm v (by simp), hnm u (by simp), hnm v (by simp)])
    refine ⟨tr'', ?_, ?_⟩
    · rw [t1, Out.bind_ok, u1, Out.bind_ok, hph]
      exact v1
    · rw [u3] at v2
      simpa [slotsRev] using v2
  | [], _, _ => simp at hlen
  | [_], _, _ => simp at hlen
  | [_, _], _, _ => simp at hlen; omega
  | [_, _, _], _, _ => simp at hlen
  | _ :: _ :: _ :: _ :: _, _, [] => simp at h2
  | _ :: _ :: _ :: _ :: _, _, [_] => simp at h2
  | _ :: _ :: _ :: _ :: _, [], a :: b' :: os => simp at hst
  | _ :: _ :: _ :: _ :: _, [_], a :: b' :: os =>
    have := congrArg List.length hst
    simp at this

end Dcm
end Uni
