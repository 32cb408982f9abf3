import Verif.Lemmas.Geometry
import Verif.Model.Geometries
import Verif.Spec.Box
import Mathlib.Tactic.Tauto

namespace Rene
open Spec

theorem mem_boxPts {b : Box} {p : Point} :
    p ∈ boxPts b ↔ b.minX ≤ p.x ∧ p.x ≤ b.maxX ∧ b.minY ≤ p.y ∧ p.y ≤ b.maxY := Iff.rfl
theorem mem_boxInterior {b : Box} {p : Point} :
    p ∈ boxInterior b ↔ b.minX < p.x ∧ p.x < b.maxX ∧ b.minY < p.y ∧ p.y < b.maxY := Iff.rfl

theorem Spec.PosArea.valid {b : Box} (h : PosArea b) : ValidBox b := ⟨h.1.le, h.2.le⟩

theorem boxPts_subset {a b : Box} (ha : ValidBox a) :
    boxPts a ⊆ boxPts b ↔ b.minX ≤ a.minX ∧ a.maxX ≤ b.maxX ∧ b.minY ≤ a.minY ∧ a.maxY ≤ b.maxY := by
  constructor
  · intro h
    have h1 := h (show (⟨a.minX, a.minY⟩ : Point) ∈ boxPts a from ⟨le_refl _, ha.1, le_refl _, ha.2⟩)
    have h2 := h (show (⟨a.maxX, a.maxY⟩ : Point) ∈ boxPts a from ⟨ha.1, le_refl _, ha.2, le_refl _⟩)
    rw [mem_boxPts] at h1 h2
    simp only at h1 h2
    tauto
  · rintro ⟨h1, h2, h3, h4⟩ p hp
    rw [mem_boxPts] at hp ⊢
    exact ⟨by linarith, by linarith, by linarith, by linarith⟩

theorem boxPts_subset_interior {a b : Box} (ha : ValidBox a) :
    boxPts a ⊆ boxInterior b ↔
      b.minX < a.minX ∧ a.maxX < b.maxX ∧ b.minY < a.minY ∧ a.maxY < b.maxY := by
  constructor
  · intro h
    have h1 := h (show (⟨a.minX, a.minY⟩ : Point) ∈ boxPts a from ⟨le_refl _, ha.1, le_refl _, ha.2⟩)
    have h2 := h (show (⟨a.maxX, a.maxY⟩ : Point) ∈ boxPts a from ⟨ha.1, le_refl _, ha.2, le_refl _⟩)
    rw [mem_boxInterior] at h1 h2
    simp only at h1 h2
    tauto
  · rintro ⟨h1, h2, h3, h4⟩ p hp
    rw [mem_boxPts] at hp
    rw [mem_boxInterior]
    exact ⟨by linarith, by linarith, by linarith, by linarith⟩

theorem boxPts_inter_empty {a b : Box} (ha : ValidBox a) (hb : ValidBox b) :
    boxPts a ∩ boxPts b = ∅ ↔
      a.maxX < b.minX ∨ b.maxX < a.minX ∨ a.maxY < b.minY ∨ b.maxY < a.minY := by
  constructor
  · intro h
    by_contra hn
    push Not at hn
    have : (⟨max a.minX b.minX, max a.minY b.minY⟩ : Point) ∈ boxPts a ∩ boxPts b := by
      rw [Set.mem_inter_iff, mem_boxPts, mem_boxPts]
      obtain ⟨h1, h2, h3, h4⟩ := hn
      exact ⟨⟨le_max_left _ _, max_le ha.1 h1, le_max_left _ _, max_le ha.2 h3⟩,
        ⟨le_max_right _ _, max_le h2 hb.1, le_max_right _ _, max_le h4 hb.2⟩⟩
    rw [h] at this; exact this
  · intro h
    ext p
    simp only [Set.mem_inter_iff, mem_boxPts, Set.mem_empty_iff_false, iff_false]
    rintro ⟨h1, h2⟩
    rcases h with h | h | h | h <;> linarith

theorem boxInterior_inter_empty {a b : Box} (ha : PosArea a) (hb : PosArea b) :
    boxInterior a ∩ boxInterior b = ∅ ↔
      a.maxX ≤ b.minX ∨ b.maxX ≤ a.minX ∨ a.maxY ≤ b.minY ∨ b.maxY ≤ a.minY := by
  constructor
  · intro h
    by_contra hn
    push Not at hn
    obtain ⟨h1, h2, h3, h4⟩ := hn
    obtain ⟨x, hx1, hx2⟩ : ∃ x, max a.minX b.minX < x ∧ x < min a.maxX b.maxX :=
      exists_between (by rw [max_lt_iff, lt_min_iff, lt_min_iff]; exact ⟨⟨ha.1, h2⟩, h1, hb.1⟩)
    obtain ⟨y, hy1, hy2⟩ : ∃ y, max a.minY b.minY < y ∧ y < min a.maxY b.maxY :=
      exists_between (by rw [max_lt_iff, lt_min_iff, lt_min_iff]; exact ⟨⟨ha.2, h4⟩, h3, hb.2⟩)
    rw [max_lt_iff] at hx1 hy1
    rw [lt_min_iff] at hx2 hy2
    have : (⟨x, y⟩ : Point) ∈ boxInterior a ∩ boxInterior b := by
      rw [Set.mem_inter_iff, mem_boxInterior, mem_boxInterior]
      exact ⟨⟨hx1.1, hx2.1, hy1.1, hy2.1⟩, ⟨hx1.2, hx2.2, hy1.2, hy2.2⟩⟩
    rw [h] at this; exact this
  · intro h
    ext p
    simp only [Set.mem_inter_iff, mem_boxInterior, Set.mem_empty_iff_false, iff_false]
    rintro ⟨h1, h2⟩
    rcases h with h | h | h | h <;> linarith

/-- coordinates form of `BoxRel` -/
def BoxCond (r : Relation) (a b : Box) : Prop :=
  match r with
  | .disjoint => a.maxX < b.minX ∨ b.maxX < a.minX ∨ a.maxY < b.minY ∨ b.maxY < a.minY
  | .touch => (¬ (a.maxX < b.minX ∨ b.maxX < a.minX ∨ a.maxY < b.minY ∨ b.maxY < a.minY)) ∧
      (a.maxX ≤ b.minX ∨ b.maxX ≤ a.minX ∨ a.maxY ≤ b.minY ∨ b.maxY ≤ a.minY)
  | .overlap => (¬ (a.maxX ≤ b.minX ∨ b.maxX ≤ a.minX ∨ a.maxY ≤ b.minY ∨ b.maxY ≤ a.minY)) ∧
      (¬ (b.minX ≤ a.minX ∧ a.maxX ≤ b.maxX ∧ b.minY ≤ a.minY ∧ a.maxY ≤ b.maxY)) ∧
      ¬ (a.minX ≤ b.minX ∧ b.maxX ≤ a.maxX ∧ a.minY ≤ b.minY ∧ b.maxY ≤ a.maxY)
  | .equal => a.minX = b.minX ∧ a.maxX = b.maxX ∧ a.minY = b.minY ∧ a.maxY = b.maxY
  | .cover => a.minX < b.minX ∧ b.maxX < a.maxX ∧ a.minY < b.minY ∧ b.maxY < a.maxY
  | .within => b.minX < a.minX ∧ a.maxX < b.maxX ∧ b.minY < a.minY ∧ a.maxY < b.maxY
  | .encloses => (a.minX ≤ b.minX ∧ b.maxX ≤ a.maxX ∧ a.minY ≤ b.minY ∧ b.maxY ≤ a.maxY) ∧
      (¬ (b.minX ≤ a.minX ∧ a.maxX ≤ b.maxX ∧ b.minY ≤ a.minY ∧ a.maxY ≤ b.maxY)) ∧
      ¬ (a.minX < b.minX ∧ b.maxX < a.maxX ∧ a.minY < b.minY ∧ b.maxY < a.maxY)
  | .enclosed => (b.minX ≤ a.minX ∧ a.maxX ≤ b.maxX ∧ b.minY ≤ a.minY ∧ a.maxY ≤ b.maxY) ∧
      (¬ (a.minX ≤ b.minX ∧ b.maxX ≤ a.maxX ∧ a.minY ≤ b.minY ∧ b.maxY ≤ a.maxY)) ∧
      ¬ (b.minX < a.minX ∧ a.maxX < b.maxX ∧ b.minY < a.minY ∧ a.maxY < b.maxY)
  | _ => False

theorem boundary_nonempty {a b : Box} (h : boxPts b ⊆ boxPts a) :
    (boxPts b ∩ boxBoundary a).Nonempty ↔ ¬ boxPts b ⊆ boxInterior a := by
  constructor
  · rintro ⟨p, hp, hp'⟩ h'; exact hp'.2 (h' hp)
  · intro h'
    by_contra hn
    apply h'
    intro p hp
    by_contra hp'
    exact hn ⟨p, hp, h hp, hp'⟩

theorem boxRel_iff_cond {a b : Box} (ha : PosArea a) (hb : PosArea b) (r : Relation) :
    BoxRel r a b ↔ BoxCond r a b := by
  have e1 := boxPts_inter_empty ha.valid hb.valid
  have e2 := boxInterior_inter_empty ha hb
  have s1 := boxPts_subset ha.valid (b := b)
  have s2 := boxPts_subset hb.valid (b := a)
  have i1 := boxPts_subset_interior ha.valid (b := b)
  have i2 := boxPts_subset_interior hb.valid (b := a)
  cases r <;> simp only [BoxRel, BoxCond]
  case disjoint => exact e1
  case touch => rw [ne_eq, e1, e2]
  case overlap => rw [ne_eq, e2, s1, s2]
  case cover => exact i2
  case within => exact i1
  case equal =>
    rw [Set.Subset.antisymm_iff, s1, s2]
    constructor
    · rintro ⟨⟨h1, h2, h3, h4⟩, h5, h6, h7, h8⟩
      exact ⟨le_antisymm h5 h1, le_antisymm h2 h6, le_antisymm h7 h3, le_antisymm h4 h8⟩
    · rintro ⟨h1, h2, h3, h4⟩
      exact ⟨⟨h1.ge, h2.le, h3.ge, h4.le⟩, h1.le, h2.ge, h3.le, h4.ge⟩
  case encloses =>
    constructor
    · rintro ⟨⟨h1, h2⟩, h3⟩
      rw [boundary_nonempty h1, i2] at h3
      rw [← s2, ← s1]
      exact ⟨h1, h2, h3⟩
    · rintro ⟨h1, h2, h3⟩
      rw [← s2] at h1
      rw [← s1] at h2
      exact ⟨⟨h1, h2⟩, by rw [boundary_nonempty h1, i2]; exact h3⟩
  case enclosed =>
    constructor
    · rintro ⟨⟨h1, h2⟩, h3⟩
      rw [boundary_nonempty h1, i1] at h3
      rw [← s2, ← s1]
      exact ⟨h1, h2, h3⟩
    · rintro ⟨h1, h2, h3⟩
      rw [← s1] at h1
      rw [← s2] at h2
      exact ⟨⟨h1, h2⟩, by rw [boundary_nonempty h1, i1]; exact h3⟩

theorem tri (a b : ℚ) : (a < b ∧ ¬ a = b ∧ ¬ b < a) ∨ (a = b ∧ ¬ a < b ∧ ¬ b < a)
    ∨ (b < a ∧ ¬ a = b ∧ ¬ a < b) := by
  rcases lt_trichotomy a b with h | h | h
  · exact Or.inl ⟨h, h.ne, h.not_gt⟩
  · exact Or.inr (Or.inl ⟨h, h.not_lt, h.not_gt⟩)
  · exact Or.inr (Or.inr ⟨h, h.ne', h.not_gt⟩)

theorem relateTo_cond {a b : Box} (ha : PosArea a) (hb : PosArea b) : BoxCond (a.relateTo b) a b := by
  obtain ⟨ha1, ha2⟩ := ha
  obtain ⟨hb1, hb2⟩ := hb
  unfold Box.relateTo
  rcases tri a.maxX b.maxX with ⟨h1, h2, h3⟩ | ⟨h1, h2, h3⟩ | ⟨h1, h2, h3⟩ <;>
    rcases tri a.maxY b.maxY with ⟨h1', h2', h3'⟩ | ⟨h1', h2', h3'⟩ | ⟨h1', h2', h3'⟩ <;>
    simp only [h1, h2, h3, h1', h2', h3', gt_iff_lt, if_true, if_false] <;>
    (repeat' split) <;> simp only [BoxCond] <;> grind

theorem BoxCond_unique {a b : Box} (ha : PosArea a) (hb : PosArea b) {r r' : Relation}
    (h : BoxCond r a b) (h' : BoxCond r' a b) : r = r' := by
  obtain ⟨ha1, ha2⟩ := ha
  obtain ⟨hb1, hb2⟩ := hb
  cases r <;> cases r' <;> simp only [BoxCond] at h h' <;> first | rfl | grind

end Rene
