import Verif.Lemmas.BO.Valid
import Verif.Props.MixedExamples

/-! C36: `is_valid` of multisegments and contours. -/

namespace Rene
open Spec Sweep BO

/-- `Multisegment.is_valid` is `True` exactly when the segments meet only at common ends. -/
theorem C36_multisegment_valid_iff {pick : Reg → ℕ} (hpick : GoodPick pick) (m : Multisegment) (hne : m.segments ≠ [])
    (hd : ∀ s ∈ m.segments, s.start ≠ s.end) {fuel : ℕ} (hf : 2 * m.segments.length ≤ fuel) :
    multisegmentIsValid pick fuel m = some true ↔ FullyNoded m.segments := by
  unfold multisegmentIsValid
  constructor
  · intro h
    cases hr : sweepWith pick (fun i => decide (i.relation = .touch)) fuel m.segments with
    | none => rw [hr] at h; simp at h
    | some r =>
      cases r with
      | none => rw [hr] at h; simp at h
      | some n => exact sweepWith_noded hpick (fun x hx => decide_eq_true_iff.mp hx) hd hr
  · intro h
    obtain ⟨_, _, k⟩ := sweepWith_far hpick (fun i => decide (i.relation = .touch)) h hne fuel
    obtain ⟨n, hn, _⟩ := k hf fun i _ j _ _ q _ _ => rfl
    rw [hn]

/-- Without an assumption about the fuel a positive answer is right. -/
theorem C36_multisegment_valid_sound {pick : Reg → ℕ} (hpick : GoodPick pick) (m : Multisegment)
    (hd : ∀ s ∈ m.segments, s.start ≠ s.end) {fuel : ℕ} (h : multisegmentIsValid pick fuel m = some true) :
    FullyNoded m.segments := by
  unfold multisegmentIsValid at h
  cases hr : sweepWith pick (fun i => decide (i.relation = .touch)) fuel m.segments with
  | none => rw [hr] at h; simp at h
  | some r =>
    cases r with
    | none => rw [hr] at h; simp at h
    | some n => exact sweepWith_noded hpick (fun x hx => decide_eq_true_iff.mp hx) hd hr

theorem segments_nonDegenerate {vs : List Point} (h : NoStraight vs) : ∀ s ∈ toContourSegments vs, s.start ≠ s.end := by
  intro s hs
  obtain ⟨i, hi', rfl⟩ := mem_segAt hs
  rw [contour_length] at hi'
  rw [contour_get hi']
  intro k
  simp only at k
  refine h i hi' ?_
  rw [orient_collinear, k]; unfold cr; ring

theorem vtx_inj {vs : List Point} (h : vs.Nodup) {i j : ℕ} (h0 : 0 < vs.length) (e : vtx vs i = vtx vs j) :
    i % vs.length = j % vs.length := by
  unfold vtx at e
  have hi' := Nat.mod_lt i h0
  have hj := Nat.mod_lt j h0
  rw [List.getD_eq_getElem?_getD, List.getElem?_eq_getElem hi', List.getD_eq_getElem?_getD, List.getElem?_eq_getElem hj] at e
  exact (List.Nodup.getElem_inj_iff h).mp e

theorem isEnd_contour {vs : List Point} {i : ℕ} (hi' : i < vs.length) {q : Point} :
    IsEnd (segAt (toContourSegments vs) i) q ↔ q = vtx vs i ∨ q = vtx vs (i + 1) := by
  rw [contour_get hi']; rfl

/-- The contacts of different edges of a simple contour are between neighbours. -/
theorem nbr_of_simple {vs : List Point} (hn : vs.Nodup) {i j : ℕ} (hi' : i < vs.length) (hj : j < vs.length) (hij : i ≠ j)
    {q : Point} (qi : IsEnd (segAt (toContourSegments vs) i) q) (qj : IsEnd (segAt (toContourSegments vs) j) q) :
    Nbr vs.length i j := by
  rw [isEnd_contour hi'] at qi
  rw [isEnd_contour hj] at qj
  have h0 : 0 < vs.length := by omega
  have mi := Nat.mod_eq_of_lt hi'
  have mj := Nat.mod_eq_of_lt hj
  unfold Nbr
  rcases qi with k | k <;> rcases qj with l | l <;> have := vtx_inj hn h0 (k.symm.trans l)
  · rw [mi, mj] at this; exact absurd this hij
  · rw [mi] at this; exact Or.inr this.symm
  · rw [mj] at this; exact Or.inl this
  · have a : ∀ k < vs.length, (k + 1) % vs.length = if k + 1 = vs.length then 0 else k + 1 := by
      intro k hk
      split
      · next h => rw [h, Nat.mod_self]
      · exact Nat.mod_eq_of_lt (by omega)
    rw [a i hi', a j hj] at this
    split at this <;> split at this <;> omega

/-- Two edges end at each vertex of a simple contour. -/
theorem star_two {vs : List Point} (h3 : 3 ≤ vs.length) (hn : vs.Nodup) {q : Point} {ids : List ℕ} (hne : ids ≠ [])
    (hd : ids.Nodup) (hm : ∀ z, z ∈ ids ↔ z < vs.length ∧ IsEnd (segAt (toContourSegments vs) z) q) :
    2 * (pairsOf ids).length = ids.length := by
  have h0 : 0 < vs.length := by omega
  have a : ∀ k < vs.length, (k + 1) % vs.length = if k + 1 = vs.length then 0 else k + 1 := by
    intro k hk
    split
    · next h => rw [h, Nat.mod_self]
    · exact Nat.mod_eq_of_lt (by omega)
  obtain ⟨k, hk, hq⟩ : ∃ k < vs.length, q = vtx vs k := by
    obtain ⟨z, hz⟩ := List.exists_mem_of_ne_nil ids hne
    obtain ⟨h1, h2⟩ := (hm z).mp hz
    rw [isEnd_contour h1] at h2
    rcases h2 with h2 | h2
    · exact ⟨z, h1, h2⟩
    · refine ⟨(z + 1) % vs.length, Nat.mod_lt _ h0, h2.trans ?_⟩
      unfold vtx; rw [Nat.mod_mod]
  have mem : ∀ z, z ∈ ids ↔ z ∈ [k, if k = 0 then vs.length - 1 else k - 1] := by
    intro z
    rw [hm, List.mem_cons, List.mem_singleton]
    constructor
    · rintro ⟨h1, h2⟩
      rw [isEnd_contour h1, hq] at h2
      rcases h2 with h2 | h2 <;> have := vtx_inj hn h0 h2
      · rw [Nat.mod_eq_of_lt hk, Nat.mod_eq_of_lt h1] at this; exact Or.inl this.symm
      · rw [Nat.mod_eq_of_lt hk, a z h1] at this
        right
        split at this <;> split <;> omega
    · intro h
      have h1 : z < vs.length := by rcases h with h | h <;> [omega; (split at h <;> omega)]
      refine ⟨h1, (isEnd_contour h1).mpr ?_⟩
      rcases h with h | h
      · left; rw [h]; exact hq
      · right
        rw [hq]
        unfold vtx
        rw [a z h1, Nat.mod_eq_of_lt hk]
        congr 1
        split at h <;> split <;> omega
  have hp : ids.Perm [k, if k = 0 then vs.length - 1 else k - 1] := by
    rw [List.perm_ext_iff_of_nodup hd (by
      rw [List.nodup_cons]
      refine ⟨?_, List.nodup_singleton _⟩
      rw [List.mem_singleton]
      split <;> omega)]
    exact mem
  have hl : ids.length = 2 := hp.length_eq
  rcases ids with _ | ⟨x, _ | ⟨y, _ | ⟨z, t⟩⟩⟩ <;> simp at hl
  rfl

/-- `Contour.is_valid` is `True` exactly when the contour is simple and no vertex is collinear with its neighbours. -/
theorem C36_contour_valid_iff {pick : Reg → ℕ} (hpick : GoodPick pick) (c : Contour) {fuel : ℕ}
    (hf : 2 * c.vertices.length ≤ fuel) :
    contourIsValid pick fuel c = some true ↔ SimpleContour c ∧ NoStraight c.vertices := by
  obtain ⟨vs⟩ := c
  have ss : (Contour.mk vs).segments = toContourSegments vs := rfl
  have hl : (toContourSegments vs).length = vs.length := contour_length
  unfold contourIsValid SimpleContour
  rw [ss, hl]
  simp only at hf ⊢
  constructor
  · intro h
    by_cases k1 : areContourVerticesNonDegenerate vs = false
    · rw [if_pos k1] at h; simp at h
    rw [if_neg k1] at h
    by_cases k2 : vs.length < 3
    · rw [if_pos k2] at h; simp at h
    rw [if_neg k2] at h
    push Not at k2
    rw [Bool.not_eq_false, nonDegenerate_iff k2] at k1
    have nd := segments_nonDegenerate k1
    cases hr : sweepWith pick (neighbourSegmentsVerticesTouch (toContourSegments vs)) fuel (toContourSegments vs) with
    | none => rw [hr] at h; simp at h
    | some r =>
      cases r with
      | none => rw [hr] at h; simp at h
      | some n =>
        have hF := sweepWith_noded hpick (fun x hx => touch_of_test hx) nd hr
        obtain ⟨_, p, _⟩ := sweepWith_far hpick (neighbourSegmentsVerticesTouch (toContourSegments vs)) hF
          (by intro z; rw [z] at hl; simp at hl; omega) fuel
        have p := p n hr
        rw [hl] at p
        refine ⟨⟨k2, ?_, hF⟩, k1⟩
        rw [List.nodup_iff_injective_get]
        intro ⟨i, hi'⟩ ⟨j, hj⟩ e
        by_contra hij
        have hij : i ≠ j := fun z => hij (by simp [z])
        have vt : ∀ i (h : i < vs.length), vtx vs i = vs[i] := by
          intro i h
          unfold vtx
          rw [Nat.mod_eq_of_lt h, List.getD_eq_getElem?_getD, List.getElem?_eq_getElem h]; rfl
        have e : vtx vs i = vtx vs j := by rw [vt i hi', vt j hj]; exact e
        have qi : IsEnd (segAt (toContourSegments vs) i) (vtx vs i) := (isEnd_contour hi').mpr (Or.inl rfl)
        have qj : IsEnd (segAt (toContourSegments vs) j) (vtx vs i) := (isEnd_contour hj).mpr (Or.inl e)
        have nb : Nbr vs.length i j := by
          rcases p i hi' j hj hij _ qi qj with z | z
          · exact (test_iff k2 hi' hj qi qj).mp z
          · exact ((test_iff k2 hj hi' qj qi).mp z).symm
        have md : ∀ k, vtx vs (k % vs.length) = vtx vs k := by intro k; unfold vtx; rw [Nat.mod_mod]
        have ne : ∀ k, k < vs.length → vtx vs k ≠ vtx vs (k + 1) := by
          intro k hk z
          refine k1 k hk ?_
          rw [orient_collinear, ← z]; unfold cr; ring
        rcases nb with z | z
        · refine ne i hi' ?_
          rw [← md (i + 1), z]; exact e
        · refine ne j hj ?_
          rw [← md (j + 1), z]; exact e.symm
  · rintro ⟨⟨h3, hn, hF⟩, hs⟩
    rw [if_neg (by rw [Bool.not_eq_false, nonDegenerate_iff h3]; exact hs), if_neg (by omega)]
    obtain ⟨_, _, p⟩ := sweepWith_far hpick (neighbourSegmentsVerticesTouch (toContourSegments vs)) hF
      (by intro z; rw [z] at hl; simp at hl; omega) fuel
    rw [hl] at p
    obtain ⟨n, n1, n2⟩ := p hf fun i hi' j hj hij q qi qj =>
      (test_iff h3 hi' hj qi qj).mpr (nbr_of_simple hn hi' hj hij qi qj)
    rw [n1]
    simp only
    rw [n2 fun q ids ne nd hm => star_two h3 hn ne nd hm]
    simp

/-- No `assert` fails in `Contour.is_valid` while the edges meet only at common ends. -/
theorem C36_contour_noded_total {pick : Reg → ℕ} (hpick : GoodPick pick) (c : Contour) (hF : FullyNoded c.segments)
    {fuel : ℕ} (hf : 2 * c.vertices.length ≤ fuel) : contourIsValid pick fuel c ≠ none := by
  unfold contourIsValid
  by_cases k1 : areContourVerticesNonDegenerate c.vertices = false
  · rw [if_pos k1]; simp
  rw [if_neg k1]
  by_cases k2 : c.segments.length < 3
  · rw [if_pos k2]; simp
  rw [if_neg k2]
  have hl : c.segments.length = c.vertices.length := contour_length
  obtain ⟨p, _, _⟩ := sweepWith_far hpick (neighbourSegmentsVerticesTouch c.segments) hF
    (by intro z; rw [z] at k2; simp at k2) fuel
  have := p (by omega)
  generalize sweepWith pick (neighbourSegmentsVerticesTouch c.segments) fuel c.segments = r at *
  rcases r with _ | _ | n
  · exact absurd rfl this
  · simp
  · simp

/-! ### Concrete cases -/

/-- The choice of the code by the present keys is one of the choices the theorems are about. -/
example : GoodPick pickFull := pickFull_good

/-- A star of three segments and a segment touching it at an end. -/
def validStar : Multisegment :=
  ⟨[⟨⟨0, 0⟩, ⟨2, 1⟩⟩, ⟨⟨0, 0⟩, ⟨1, 2⟩⟩, ⟨⟨-1, 1⟩, ⟨0, 0⟩⟩, ⟨⟨2, 1⟩, ⟨1, 2⟩⟩]⟩

example : FullyNoded validStar.segments := fullyNoded_of_nodedB ⟨by decide +kernel, by decide +kernel⟩

example : multisegmentIsValid pickFull 8 validStar = some true :=
  (C36_multisegment_valid_iff pickFull_good validStar (by decide) (by decide +kernel) (by decide)).mpr
    (fullyNoded_of_nodedB ⟨by decide +kernel, by decide +kernel⟩)

/-- A non-convex contour. -/
def validArrow : Contour := ⟨[⟨0, 0⟩, ⟨4, 0⟩, ⟨1, 1⟩, ⟨0, 4⟩]⟩

example : SimpleContour validArrow ∧ NoStraight validArrow.vertices :=
  ⟨simple_of_simpleB (by decide +kernel), (nonDegenerate_iff (by decide)).mp (by decide +kernel)⟩

example : contourIsValid pickFull 8 validArrow = some true :=
  (C36_contour_valid_iff pickFull_good validArrow (by decide)).mpr
    ⟨simple_of_simpleB (by decide +kernel), (nonDegenerate_iff (by decide)).mp (by decide +kernel)⟩

/-- A T-shaped touch is not valid. -/
example : multisegmentIsValid pickFull 20 ⟨[⟨⟨0, 0⟩, ⟨4, 0⟩⟩, ⟨⟨2, 0⟩, ⟨2, 3⟩⟩]⟩ = some false := by decide +kernel

/-- A self-touching contour (two triangles with a common vertex) is not valid. -/
example : contourIsValid pickFull 20 ⟨[⟨0, 0⟩, ⟨2, 1⟩, ⟨4, 0⟩, ⟨4, 3⟩, ⟨2, 1⟩, ⟨0, 3⟩]⟩ = some false := by decide +kernel

/-- Finding: for several collinear segments with a common start `is_valid` fails an `assert` instead of returning
`False`. -/
theorem C36_assert_finding : multisegmentIsValid pickFull 100
    ⟨[⟨⟨0, 0⟩, ⟨5, 0⟩⟩, ⟨⟨0, 0⟩, ⟨4, 0⟩⟩, ⟨⟨0, 0⟩, ⟨3, 0⟩⟩, ⟨⟨0, 0⟩, ⟨2, 0⟩⟩, ⟨⟨0, 0⟩, ⟨1, 0⟩⟩]⟩ = none := by decide +kernel

end Rene
