import Verif.Lemmas.Permute
import Verif.Lemmas.Geometry
import Verif.Lemmas.UniteLoop
import Verif.Lemmas.ContourSegments
import Verif.Props.Contours
import Verif.Props.Basics
import Mathlib.Tactic.LinearCombination

/-! # C28-C32, C42: helpers, constructors, views -/

namespace Rene
open Spec

/-! ### C28 -/

/-- Squared distance. -/
def Spec.dist2 (p q : Point) : ℚ := (p.x - q.x) * (p.x - q.x) + (p.y - q.y) * (p.y - q.y)

/-- `o` is the centre of the circle through the three points. -/
def Spec.IsCircumcenter (o a b c : Point) : Prop := dist2 a o = dist2 b o ∧ dist2 a o = dist2 c o

/-- C28: for a counterclockwise triangle the in-circle predicate compares the distance to the
circumcentre with the circumradius. -/
theorem C28_in_circle (p a b c o : Point) (h : 0 < area2 a b c) (ho : IsCircumcenter o a b c) :
    (locatePointInCircle p a b c = .interior ↔ dist2 p o < dist2 a o) ∧
    (locatePointInCircle p a b c = .boundary ↔ dist2 p o = dist2 a o) ∧
    (locatePointInCircle p a b c = .exterior ↔ dist2 a o < dist2 p o) := by
  obtain ⟨h1, h2⟩ := ho
  have key : ((a.x - p.x) * (a.x - p.x) + (a.y - p.y) * (a.y - p.y)) *
        ((b.x - p.x) * (c.y - p.y) - (b.y - p.y) * (c.x - p.x))
      - ((b.x - p.x) * (b.x - p.x) + (b.y - p.y) * (b.y - p.y)) *
        ((a.x - p.x) * (c.y - p.y) - (a.y - p.y) * (c.x - p.x))
      + ((c.x - p.x) * (c.x - p.x) + (c.y - p.y) * (c.y - p.y)) *
        ((a.x - p.x) * (b.y - p.y) - (a.y - p.y) * (b.x - p.x)) =
      area2 a b c * (dist2 a o - dist2 p o) := by
    unfold dist2 at *
    unfold area2
    linear_combination ((a.x - p.x) * (c.y - p.y) - (a.y - p.y) * (c.x - p.x)) * h1
      - ((a.x - p.x) * (b.y - p.y) - (a.y - p.y) * (b.x - p.x)) * h2
  unfold locatePointInCircle toSign
  simp only
  rw [key]
  rcases lt_trichotomy (dist2 p o) (dist2 a o) with k | k | k
  · have : 0 < area2 a b c * (dist2 a o - dist2 p o) := mul_pos h (by linarith)
    simp [this, k, k.ne, not_lt.mpr k.le]
  · have : area2 a b c * (dist2 a o - dist2 p o) = 0 := by rw [k]; ring
    simp [this, k]
  · have : area2 a b c * (dist2 a o - dist2 p o) < 0 := mul_neg_of_pos_of_neg h (by linarith)
    simp [not_lt.mpr this.le, this.ne, k, k.ne', not_lt.mpr k.le]

/-- C28: every triangle has a circumcentre, so the theorem above applies to all of them. -/
theorem C28_circumcenter_exists (a b c : Point) (h : area2 a b c ≠ 0) : ∃ o, IsCircumcenter o a b c := by
  have e : area2 a b c = (b.x - a.x) * (c.y - a.y) - (b.y - a.y) * (c.x - a.x) := by unfold area2; ring
  rw [e] at h
  set D := (b.x - a.x) * (c.y - a.y) - (b.y - a.y) * (c.x - a.x) with hD
  set B := (b.x - a.x) * (b.x - a.x) + (b.y - a.y) * (b.y - a.y) with hB
  set C := (c.x - a.x) * (c.x - a.x) + (c.y - a.y) * (c.y - a.y) with hC
  refine ⟨⟨a.x + (B * (c.y - a.y) - C * (b.y - a.y)) / (2 * D),
    a.y + (C * (b.x - a.x) - B * (c.x - a.x)) / (2 * D)⟩, ?_, ?_⟩
  · unfold dist2
    simp only
    field_simp
    rw [hD, hB, hC]; ring
  · unfold dist2
    simp only
    field_simp
    rw [hD, hB, hC]; ring

example : locatePointInCircle ⟨1, 1⟩ ⟨0, 0⟩ ⟨2, 0⟩ ⟨0, 2⟩ = .interior ∧
    locatePointInCircle ⟨2, 2⟩ ⟨0, 0⟩ ⟨2, 0⟩ ⟨0, 2⟩ = .boundary ∧ 0 < area2 ⟨0, 0⟩ ⟨2, 0⟩ ⟨0, 2⟩ ∧
    IsCircumcenter ⟨1, 1⟩ ⟨0, 0⟩ ⟨2, 0⟩ ⟨0, 2⟩ := by
  refine ⟨by decide +kernel, by decide +kernel, by decide +kernel, by decide +kernel, by decide +kernel⟩

/-! ### C29 -/

/-- C29: the seeded permutation neither loses nor duplicates items. -/
theorem C29_permute_rearranges {α : Type} (l : List α) (seed : Nat) : (permute l seed).Perm l :=
  permuteLoop_perm _ _ _

/-- C29: different seeds below `n!` give different arrangements of `n` different items. -/
theorem C29_permute_injective {α : Type} (l : List α) (hl : l.Nodup) (s t : Nat)
    (hs : s < l.length.factorial) (ht : t < l.length.factorial) (h : permute l s = permute l t) : s = t :=
  permute_inj hl hs ht h

/-- C29: every arrangement is reached by a seed below `n!`. -/
theorem C29_permute_surjective {α : Type} (l r : List α) (h : r.Perm l) :
    ∃ seed < l.length.factorial, permute l seed = r := permute_surj h

/-- C29: rearranging depends on positions only. -/
theorem C29_permute_natural {α β : Type} (f : α → β) (l : List α) (seed : Nat) :
    permute (l.map f) seed = (permute l seed).map f := by
  unfold permute
  rw [List.length_map, permuteLoop_map]

example : permute [10, 20, 30] 0 = [20, 30, 10] ∧ permute [10, 20, 30] 5 = [10, 20, 30] ∧ [10, 20, 30].Nodup ∧
    5 < ([10, 20, 30] : List Nat).length.factorial := by decide

/-! ### C30 -/

/-- C30: a seed is accepted exactly when it is an integer from `0` to the maximum. -/
theorem C30_seed_accepted (seed : SeedArg) (max : Int) :
    validateSeed seed max = none ↔ ∃ n : Int, seed = .int n ∧ 0 ≤ n ∧ n ≤ max := by
  cases seed with
  | other => simp [validateSeed]
  | int n =>
    simp only [validateSeed, SeedArg.int.injEq, exists_eq_left']
    split
    · simp; omega
    · split
      · simp; omega
      · simp; omega

/-- C30: which error a rejected seed raises. -/
theorem C30_seed_errors (seed : SeedArg) (max : Int) (hmax : 0 ≤ max) :
    (validateSeed seed max = some .typeError ↔ ∀ n : Int, seed ≠ .int n) ∧
    (validateSeed seed max = some .valueError ↔ ∃ n : Int, seed = .int n ∧ n < 0) ∧
    (validateSeed seed max = some .overflowError ↔ ∃ n : Int, seed = .int n ∧ max < n) := by
  cases seed with
  | other => simp [validateSeed]
  | int n =>
    simp only [validateSeed, SeedArg.int.injEq, exists_eq_left']
    split
    · simp; omega
    · split
      · simp; omega
      · simp; omega

example : validateSeed (.int (2 ^ 64 - 1)) (2 ^ 64 - 1) = none ∧
    validateSeed (.int (2 ^ 64)) (2 ^ 64 - 1) = some .overflowError := by decide

/-! ### C31 -/

/-- C31: constructors of contours, multisegments and multipolygons raise `ValueError` exactly on too few
components and otherwise keep the components and their order. -/
theorem C31_constructors (vertices : List Point) (segments : List Segment) (polygons : List Polygon) :
    (Contour.new vertices = .error .valueError ↔ vertices.length < 3) ∧
    (∀ c, Contour.new vertices = .ok c ↔ 3 ≤ vertices.length ∧ c.vertices = vertices) ∧
    (Multisegment.new segments = .error .valueError ↔ segments.length < 2) ∧
    (∀ m, Multisegment.new segments = .ok m ↔ 2 ≤ segments.length ∧ m.segments = segments) ∧
    (Multipolygon.new polygons = .error .valueError ↔ polygons.length < 2) ∧
    (∀ m, Multipolygon.new polygons = .ok m ↔ 2 ≤ polygons.length ∧ m.polygons = polygons) := by
  unfold Contour.new Multisegment.new Multipolygon.new
  refine ⟨?_, ?_, ?_, ?_, ?_, ?_⟩
  · split <;> simp_all
  · rintro ⟨v⟩; split
    · simp; omega
    · simp only [Except.ok.injEq, Contour.mk.injEq]; constructor
      · rintro rfl; exact ⟨by omega, rfl⟩
      · exact fun h => h.2.symm
  · split <;> simp_all
  · rintro ⟨v⟩; split
    · simp; omega
    · simp only [Except.ok.injEq, Multisegment.mk.injEq]; constructor
      · rintro rfl; exact ⟨by omega, rfl⟩
      · exact fun h => h.2.symm
  · split <;> simp_all
  · rintro ⟨v⟩; split
    · simp; omega
    · simp only [Except.ok.injEq, Multipolygon.mk.injEq]; constructor
      · rintro rfl; exact ⟨by omega, rfl⟩
      · exact fun h => h.2.symm

/-! ### C32 -/

theorem length_consecutive (l : List Point) : (consecutive l).length = l.length - 1 := by
  induction l with
  | nil => rfl
  | cons a l ih =>
    cases l with
    | nil => rfl
    | cons b l => simp only [consecutive, List.length_cons] at *; omega

theorem getElem?_consecutive (l : List Point) (i : Nat) (a b : Point) (ha : l[i]? = some a)
    (hb : l[i + 1]? = some b) : (consecutive l)[i]? = some ⟨a, b⟩ := by
  induction l generalizing i with
  | nil => simp at ha
  | cons v l ih =>
    cases l with
    | nil => simp at hb
    | cons w l =>
      cases i with
      | zero => simp at ha hb; simp [consecutive, ha, hb]
      | succ i =>
        simp only [List.getElem?_cons_succ] at ha hb
        simp only [consecutive, List.getElem?_cons_succ]
        exact ih i ha hb

/-- C32: the segments view of a contour with `n` vertices has `n` items, the `i`-th going from the `i`-th
vertex to the next one, cyclically. -/
theorem C32_contour_segments (c : Contour) (hc : c.vertices ≠ []) :
    c.segments.length = c.vertices.length ∧
    ∀ (i : Nat) (a b : Point), c.vertices[i]? = some a →
      c.vertices[(i + 1) % c.vertices.length]? = some b → c.segments[i]? = some ⟨a, b⟩ := by
  rcases c with ⟨_ | ⟨v, vs⟩⟩
  · simp at hc
  · simp only [Contour.segments, toContourSegments_eq]
    refine ⟨by rw [length_consecutive]; simp, fun i a b ha hb => ?_⟩
    have hi : i < (v :: vs).length := by
      by_contra hn; rw [List.getElem?_eq_none (by omega)] at ha; cases ha
    refine getElem?_consecutive _ i a b ?_ ?_
    · rw [List.getElem?_append_left hi]; exact ha
    · by_cases hl : i + 1 < (v :: vs).length
      · rw [Nat.mod_eq_of_lt hl] at hb
        rw [List.getElem?_append_left hl]; exact hb
      · have e : i + 1 = (v :: vs).length := by omega
        rw [e, Nat.mod_self] at hb
        rw [e, List.getElem?_append_right le_rfl]
        simpa using hb

/-- C32: indexing accepts positions `-n ≤ i < n`, negative ones counting from the end, and raises
`IndexError` for the others. -/
theorem C32_indexing {α : Type} (items : List α) (i : Int) :
    (∀ x, pyGetItem items i = .ok x ↔ (0 ≤ i ∧ items[i.toNat]? = some x) ∨
      (i < 0 ∧ -(items.length : Int) ≤ i ∧ items[(i + items.length).toNat]? = some x)) ∧
    (pyGetItem items i = .error .indexError ↔ i < -(items.length : Int) ∨ (items.length : Int) ≤ i) := by
  unfold pyGetItem
  by_cases h : i < 0
  · simp only [h, if_true]
    by_cases h2 : 0 ≤ i + items.length
    · have hlt : (i + items.length).toNat < items.length := by omega
      rw [if_pos h2, List.getElem?_eq_getElem hlt]
      refine ⟨fun x => ?_, ?_⟩
      · simp only [Except.ok.injEq, Option.some.injEq, true_and]
        constructor
        · intro e; exact Or.inr ⟨by omega, e⟩
        · rintro (⟨h', -⟩ | h'); · omega
          exact h'.2
      · simp only [reduceCtorEq, false_iff]; omega
    · rw [if_neg h2]
      refine ⟨fun x => ?_, ?_⟩
      · simp only [reduceCtorEq, false_iff, not_or, not_and]; omega
      · simp only [true_iff]; omega
  · simp only [h, if_false]
    have h2 : 0 ≤ i := by omega
    rw [if_pos h2]
    by_cases h3 : i.toNat < items.length
    · rw [List.getElem?_eq_getElem h3]
      refine ⟨fun x => ?_, ?_⟩
      · simp only [Except.ok.injEq, Option.some.injEq, h2, true_and, false_and, or_false]
      · simp only [reduceCtorEq, false_iff]; omega
    · rw [List.getElem?_eq_none (by omega)]
      refine ⟨fun x => ?_, ?_⟩
      · simp
      · simp only [true_iff]; omega

open Classical in
/-- C32: `count` and `index` of a segments view compare point sets: they count the items with the points
of the given segment and find the first of them, `ValueError` meaning there is none. -/
theorem C32_segments_count_index (l : List Segment) (s : Segment) :
    (pyCount Segment.eqB l s = (l.filter fun t => decide (segPts t = segPts s)).length) ∧
    (pyIndexFrom Segment.eqB s l 0 = .error .valueError ↔ ∀ t ∈ l, segPts t ≠ segPts s) ∧
    (∀ i, pyIndexFrom Segment.eqB s l 0 = .ok i ↔
      ∃ before t after, l = before ++ t :: after ∧ before.length = i ∧ segPts t = segPts s ∧
        ∀ u ∈ before, segPts u ≠ segPts s) := by
  have he : ∀ t u : Segment, t.eqB u = true ↔ segPts t = segPts u := fun t u => (C17_segment_eq t u).1
  refine ⟨?_, ?_, ?_⟩
  · unfold pyCount
    congr 2
    funext t
    rw [Bool.eq_iff_iff, he, decide_eq_true_eq]
  · generalize 0 = k
    induction l generalizing k with
    | nil => simp [pyIndexFrom]
    | cons t l ih =>
      rw [List.forall_mem_cons, ← ih (k + 1), pyIndexFrom]
      by_cases h : t.eqB s = true
      · rw [if_pos h]; simp [(he t s).mp h]
      · rw [if_neg h]; exact ⟨fun h2 => ⟨fun h' => h ((he t s).mpr h'), h2⟩, fun h2 => h2.2⟩
  · have key : ∀ (l : List Segment) (k i : Nat), pyIndexFrom Segment.eqB s l k = .ok i ↔
        ∃ before t after, l = before ++ t :: after ∧ k + before.length = i ∧ segPts t = segPts s ∧
        ∀ u ∈ before, segPts u ≠ segPts s := by
      intro l
      induction l with
      | nil => simp [pyIndexFrom]
      | cons t l ih =>
        intro k i
        rw [pyIndexFrom]
        by_cases h : t.eqB s = true
        · rw [if_pos h]
          constructor
          · intro e; cases e; exact ⟨[], t, l, rfl, rfl, (he t s).mp h, by simp⟩
          · rintro ⟨_ | ⟨b, before⟩, u, after, e, hk, hu, hb⟩
            · simp at hk; rw [hk]
            · rw [List.cons_append] at e; cases e
              exact absurd ((he _ _).mp h) (hb _ List.mem_cons_self)
        · rw [if_neg h, ih]
          constructor
          · rintro ⟨before, u, after, rfl, hk, hu, hb⟩
            refine ⟨t :: before, u, after, rfl, by rw [List.length_cons]; omega, hu, ?_⟩
            rw [List.forall_mem_cons]; exact ⟨fun h' => h ((he t s).mpr h'), hb⟩
          · rintro ⟨_ | ⟨b, before⟩, u, after, e, hk, hu, hb⟩
            · rw [List.nil_append] at e; cases e
              exact absurd ((he _ _).mpr hu) h
            · rw [List.cons_append] at e; cases e
              rw [List.length_cons] at hk
              exact ⟨before, u, after, rfl, by omega, hu, (List.forall_mem_cons.mp hb).2⟩
    intro i
    rw [key]; simp only [Nat.zero_add]

example : pyIndexFrom Segment.eqB ⟨⟨4, 0⟩, ⟨0, 0⟩⟩ (toContourSegments [⟨1, 1⟩, ⟨0, 0⟩, ⟨4, 0⟩]) 0 = .ok 1 := by
  decide +kernel

/-! ### C42 -/

/-- C42: deduplication of sorted points keeps exactly the given points, each once, in strictly increasing
order. -/
theorem C42_deduplicate (l : List Point) (hl : l.Pairwise (fun a b => ¬ lexLt b a)) :
    (deduplicate l).Pairwise lexLt ∧ ∀ p, p ∈ deduplicate l ↔ p ∈ l := by
  refine ⟨?_, fun p => mem_deduplicate⟩
  have h : l.Pairwise (· ≤ ·) := hl.imp fun {a b} hab => by
    rw [← not_lt, Point.lt_iff]; exact hab
  exact (deduplicate_sorted h).imp fun {a b} hab => by rw [Point.lt_iff] at hab; exact hab

/-- C42: `ceil_log2` of a positive number is the least exponent of a power of two reaching it. -/
theorem C42_ceil_log2 (n : Nat) (hn : 1 ≤ n) (k : Nat) : ceilLog2 n ≤ k ↔ n ≤ 2 ^ k := by
  obtain ⟨m, hm⟩ : ∃ m, n.size = m + 1 :=
    Nat.exists_eq_succ_of_ne_zero (Nat.pos_iff_ne_zero.mp (Nat.size_pos.mpr hn))
  have hlo : 2 ^ m ≤ n := Nat.lt_size.mp (by omega)
  have hhi : n < 2 ^ (m + 1) := Nat.size_le.mp hm.le
  unfold ceilLog2
  rcases Nat.lt_or_ge (2 ^ m) n with h | h
  · have hne : n &&& (n - 1) ≠ 0 := by
      intro e
      have h1 : n.testBit m = true := by
        rw [Nat.testBit_eq_decide_div_mod_eq]
        have : n / 2 ^ m = 1 := by
          rw [Nat.div_eq_iff (by positivity)]; rw [pow_succ] at hhi; omega
        simp [this]
      have h2 : (n - 1).testBit m = true := by
        rw [Nat.testBit_eq_decide_div_mod_eq]
        have : (n - 1) / 2 ^ m = 1 := by
          rw [Nat.div_eq_iff (by positivity)]; rw [pow_succ] at hhi; omega
        simp [this]
      have := congrArg (fun x => x.testBit m) e
      simp [Nat.testBit_and, h1, h2] at this
    rw [if_neg hne, hm, Nat.sub_zero]
    constructor
    · intro hk; exact hhi.le.trans (Nat.pow_le_pow_right (by omega) hk)
    · intro hk; by_contra hlt
      have : 2 ^ k ≤ 2 ^ m := Nat.pow_le_pow_right (by omega) (by omega)
      omega
  · have e : n = 2 ^ m := by omega
    have hz : n &&& (n - 1) = 0 := by
      rw [e, Nat.and_two_pow_sub_one_eq_mod, Nat.mod_self]
    rw [if_pos hz, hm, Nat.add_sub_cancel]
    rw [e, Nat.pow_le_pow_iff_right (by omega)]

/-- C42: the base cases of a triangulation of `n ≥ 2` points use every point exactly once, in blocks of
two and of three. -/
theorem C42_base_cases (n : Nat) (hn : 2 ≤ n) :
    2 * (toBaseCases n).1 + 3 * (toBaseCases n).2 = n ∧ (toBaseCases n).1 ≤ 2 := by
  unfold toBaseCases
  simp only
  split
  · constructor <;> simp <;> omega
  · split
    · constructor <;> simp; omega
    · constructor <;> simp; omega

example : toBaseCases 7 = (2, 1) ∧ ceilLog2 5 = 3 ∧ ceilLog2 8 = 3 ∧
    deduplicate ([⟨0, 0⟩, ⟨0, 0⟩, ⟨0, 1⟩, ⟨2, 0⟩, ⟨2, 0⟩] : List Point) = [⟨0, 0⟩, ⟨0, 1⟩, ⟨2, 0⟩] := by decide +kernel

end Rene
