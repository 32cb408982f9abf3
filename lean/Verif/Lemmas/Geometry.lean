import Verif.Spec.Basic
import Mathlib.Tactic.Ring
import Mathlib.Tactic.Linarith
import Mathlib.Tactic.LinearCombination
import Mathlib.Tactic.FieldSimp
import Mathlib.Tactic.Positivity
import Mathlib.Data.Prod.Lex
import Mathlib.Order.Basic

/-! Helper lemmas on points, orientation and segments. -/

namespace Rene
open Spec

@[ext] theorem Point.ext' {a b : Point} (hx : a.x = b.x) (hy : a.y = b.y) : a = b := by
  cases a; cases b; simp_all

theorem Point.eq_iff {a b : Point} : a = b ↔ a.x = b.x ∧ a.y = b.y :=
  ⟨fun h => by simp [h], fun h => Point.ext' h.1 h.2⟩

/-- lexicographic linear order -/
instance : LinearOrder Point :=
  LinearOrder.lift' (fun p : Point => toLex (p.x, p.y)) (by
    intro a b h; simp at h; exact Point.ext' h.1 h.2)

theorem Point.lt_iff {a b : Point} : a < b ↔ a.x < b.x ∨ (a.x = b.x ∧ a.y < b.y) := by
  change toLex (a.x, a.y) < toLex (b.x, b.y) ↔ _
  rw [Prod.Lex.toLex_lt_toLex]

theorem Point.le_iff {a b : Point} : a ≤ b ↔ a.x < b.x ∨ (a.x = b.x ∧ a.y ≤ b.y) := by
  change toLex (a.x, a.y) ≤ toLex (b.x, b.y) ↔ _
  rw [Prod.Lex.toLex_le_toLex]

theorem Point.ltB_iff {a b : Point} : a.ltB b = true ↔ a < b := by
  simp [Point.ltB, Point.lt_iff]
theorem Point.leB_iff {a b : Point} : a.leB b = true ↔ a ≤ b := by
  simp [Point.leB, Point.le_iff]
theorem Point.gtB_iff {a b : Point} : a.gtB b = true ↔ b < a := by
  simp [Point.gtB, Point.lt_iff, eq_comm (a := a.x)]
theorem Point.geB_iff {a b : Point} : a.geB b = true ↔ b ≤ a := by
  simp [Point.geB, Point.le_iff, eq_comm (a := a.x)]
theorem Point.eqB_iff {a b : Point} : a.eqB b = true ↔ a = b := by
  simp [Point.eqB, Point.eq_iff]

/-- cross product of `b - a` and `c - a` -/
def cr (a b c : Point) : ℚ := (b.x - a.x) * (c.y - a.y) - (b.y - a.y) * (c.x - a.x)

theorem cr_eq_area2 (a b c : Point) : cr a b c = area2 a b c := by
  unfold cr area2; ring

theorem orient_def (a b c : Point) : orient a b c =
    if cr a b c = 0 then .collinear else if 0 < cr a b c then .counterclockwise else .clockwise := by
  unfold orient toSign
  have : crossMultiply a b a c = cr a b c := rfl
  rw [this]
  by_cases h0 : cr a b c = 0
  · simp [h0]
  · by_cases h1 : 0 < cr a b c <;> simp [h0, h1]

theorem orient_collinear {a b c : Point} : orient a b c = .collinear ↔ cr a b c = 0 := by
  rw [orient_def]; split
  · simpa
  · split <;> simpa
theorem orient_ccw {a b c : Point} : orient a b c = .counterclockwise ↔ 0 < cr a b c := by
  rw [orient_def]; split
  · rename_i h; simp [h]
  · split
    · simpa
    · rename_i h2; simpa using h2
theorem orient_cw {a b c : Point} : orient a b c = .clockwise ↔ cr a b c < 0 := by
  rw [orient_def]; split
  · rename_i h; simp [h]
  · rename_i h; split
    · rename_i h2; simp [le_of_lt h2]
    · rename_i h2; simp; exact lt_of_le_of_ne (not_lt.mp h2) h

theorem cr_swap12 (a b c : Point) : cr b a c = - cr a b c := by unfold cr; ring
theorem cr_swap23 (a b c : Point) : cr a c b = - cr a b c := by unfold cr; ring
theorem cr_rot (a b c : Point) : cr b c a = cr a b c := by unfold cr; ring
theorem cr_self1 (a b : Point) : cr a b a = 0 := by unfold cr; ring
theorem cr_self2 (a b : Point) : cr a b b = 0 := by unfold cr; ring
theorem cr_self3 (a b : Point) : cr a a b = 0 := by unfold cr; ring

theorem cr_lerp (a b c d : Point) (t : ℚ) :
    cr a b (lerp c d t) = (1 - t) * cr a b c + t * cr a b d := by
  unfold cr lerp; ring

theorem lerp_zero (a b : Point) : lerp a b 0 = a := by
  apply Point.ext' <;> simp [lerp]
theorem lerp_one (a b : Point) : lerp a b 1 = b := by
  apply Point.ext' <;> simp [lerp]
theorem lerp_swap (a b : Point) (t : ℚ) : lerp a b t = lerp b a (1 - t) := by
  apply Point.ext' <;> simp [lerp] <;> ring
theorem lerp_self (a : Point) (t : ℚ) : lerp a a t = a := by
  apply Point.ext' <;> simp [lerp]

theorem seg_comm (a b : Point) : seg a b = seg b a := by
  ext p
  constructor <;> rintro ⟨t, h0, h1, rfl⟩ <;>
    exact ⟨1 - t, by linarith, by linarith, lerp_swap _ _ _⟩

theorem start_mem_seg (a b : Point) : a ∈ seg a b := ⟨0, by simp, by simp, (lerp_zero a b).symm⟩
theorem end_mem_seg (a b : Point) : b ∈ seg a b := ⟨1, by simp, by simp, (lerp_one a b).symm⟩

theorem lerp_le_lerp {a b : Point} (hab : a < b) {s t : ℚ} : lerp a b s < lerp a b t ↔ s < t := by
  rw [Point.lt_iff] at hab ⊢
  simp only [lerp]
  rcases hab with h | ⟨h, h'⟩
  · have hp : 0 < b.x - a.x := by linarith
    constructor
    · rintro (h1 | ⟨h1, h2⟩)
      · by_contra hc
        push Not at hc
        nlinarith
      · have : (s - t) * (b.x - a.x) = 0 := by linarith
        have hst : s = t := by
          rcases mul_eq_zero.mp this with h3 | h3 <;> linarith
        subst hst; linarith
    · intro hst; left; nlinarith
  · have hp : 0 < b.y - a.y := by linarith
    have hx : b.x - a.x = 0 := by linarith
    rw [hx]
    constructor
    · rintro (h1 | ⟨h1, h2⟩)
      · linarith
      · by_contra hc
        push Not at hc
        nlinarith
    · intro hst; right; constructor
      · ring
      · nlinarith

theorem lerp_le_iff {a b : Point} (hab : a < b) {s t : ℚ} : lerp a b s ≤ lerp a b t ↔ s ≤ t := by
  rw [← not_lt, ← not_lt, lerp_le_lerp hab]

theorem lerp_inj {a b : Point} (hab : a ≠ b) {s t : ℚ} (h : lerp a b s = lerp a b t) : s = t := by
  rcases lt_or_gt_of_ne hab with h1 | h1
  · exact le_antisymm ((lerp_le_iff h1).mp h.le) ((lerp_le_iff h1).mp h.ge)
  · rw [lerp_swap a b s, lerp_swap a b t] at h
    have := le_antisymm ((lerp_le_iff h1).mp h.le) ((lerp_le_iff h1).mp h.ge)
    linarith

/-- A point collinear with two different points is on their parametrised line. -/
theorem exists_lerp {a b p : Point} (hab : a ≠ b) (h : cr a b p = 0) : ∃ t, p = lerp a b t := by
  by_cases hx : a.x = b.x
  · have hy : b.y - a.y ≠ 0 := fun hy => hab (Point.ext' hx (by linarith))
    refine ⟨(p.y - a.y) / (b.y - a.y), ?_⟩
    unfold cr at h
    have hx' : b.x - a.x = 0 := by linarith
    rw [hx'] at h
    have : p.x - a.x = 0 := by
      have h2 : (b.y - a.y) * (p.x - a.x) = 0 := by linarith
      rcases mul_eq_zero.mp h2 with h3 | h3
      · exact absurd h3 hy
      · exact h3
    apply Point.ext' <;> simp only [lerp]
    · rw [hx']; linarith
    · field_simp; ring
  · have hx' : b.x - a.x ≠ 0 := fun h => hx (by linarith)
    refine ⟨(p.x - a.x) / (b.x - a.x), ?_⟩
    apply Point.ext' <;> simp only [lerp]
    · field_simp; ring
    · unfold cr at h
      field_simp
      linarith

theorem cr_lerp_self (a b : Point) (t : ℚ) : cr a b (lerp a b t) = 0 := by
  unfold cr lerp; ring

/-- Membership in a segment is collinearity plus lexicographic betweenness. -/
theorem mem_seg_iff_of_le {a b p : Point} (hab : a ≤ b) :
    p ∈ seg a b ↔ cr a b p = 0 ∧ a ≤ p ∧ p ≤ b := by
  rcases hab.eq_or_lt with rfl | hab
  · constructor
    · rintro ⟨t, _, _, rfl⟩; rw [lerp_self]; exact ⟨cr_self3 _ _, le_refl _, le_refl _⟩
    · rintro ⟨_, h1, h2⟩
      have := le_antisymm h2 h1
      subst this; exact start_mem_seg _ _
  · constructor
    · rintro ⟨t, h0, h1, rfl⟩
      refine ⟨cr_lerp_self _ _ _, ?_, ?_⟩
      · have := (lerp_le_iff hab (s := 0) (t := t)).mpr h0
        rwa [lerp_zero] at this
      · have := (lerp_le_iff hab (s := t) (t := 1)).mpr h1
        rwa [lerp_one] at this
    · rintro ⟨h, h1, h2⟩
      obtain ⟨t, rfl⟩ := exists_lerp hab.ne h
      refine ⟨t, ?_, ?_, rfl⟩
      · apply (lerp_le_iff hab).mp; rwa [lerp_zero]
      · apply (lerp_le_iff hab).mp; rwa [lerp_one]

theorem mem_seg_iff {a b p : Point} :
    p ∈ seg a b ↔ cr a b p = 0 ∧ ((a ≤ p ∧ p ≤ b) ∨ (b ≤ p ∧ p ≤ a)) := by
  rcases le_total a b with h | h
  · rw [mem_seg_iff_of_le h]
    constructor
    · rintro ⟨h1, h2⟩; exact ⟨h1, Or.inl h2⟩
    · rintro ⟨h1, h2 | h2⟩
      · exact ⟨h1, h2⟩
      · have := le_antisymm h (h2.1.trans h2.2)
        subst this; exact ⟨h1, h2⟩
  · rw [seg_comm, mem_seg_iff_of_le h, cr_swap12]
    constructor
    · rintro ⟨h1, h2⟩; exact ⟨by linarith, Or.inr h2⟩
    · rintro ⟨h1, h2 | h2⟩
      · have := le_antisymm h (h2.1.trans h2.2)
        subst this; exact ⟨by linarith, h2⟩
      · exact ⟨by linarith, h2⟩

theorem mem_openSeg_iff_of_lt {a b p : Point} (hab : a < b) :
    p ∈ openSeg a b ↔ cr a b p = 0 ∧ a < p ∧ p < b := by
  constructor
  · rintro ⟨t, h0, h1, rfl⟩
    refine ⟨cr_lerp_self _ _ _, ?_, ?_⟩
    · have := (lerp_le_lerp hab (s := 0) (t := t)).mpr h0
      rwa [lerp_zero] at this
    · have := (lerp_le_lerp hab (s := t) (t := 1)).mpr h1
      rwa [lerp_one] at this
  · rintro ⟨h, h1, h2⟩
    obtain ⟨t, rfl⟩ := exists_lerp hab.ne h
    refine ⟨t, ?_, ?_, rfl⟩
    · apply (lerp_le_lerp hab).mp; rwa [lerp_zero]
    · apply (lerp_le_lerp hab).mp; rwa [lerp_one]

theorem openSeg_comm (a b : Point) : openSeg a b = openSeg b a := by
  ext p
  constructor <;> rintro ⟨t, h0, h1, rfl⟩ <;>
    exact ⟨1 - t, by linarith, by linarith, lerp_swap _ _ _⟩

theorem mem_openSeg_iff {a b p : Point} (hab : a ≠ b) :
    p ∈ openSeg a b ↔ p ∈ seg a b ∧ p ≠ a ∧ p ≠ b := by
  constructor
  · rintro ⟨t, h0, h1, rfl⟩
    refine ⟨⟨t, h0.le, h1.le, rfl⟩, ?_, ?_⟩
    · intro h
      have := lerp_inj hab (h.trans (lerp_zero a b).symm); linarith
    · intro h
      have := lerp_inj hab (h.trans (lerp_one a b).symm); linarith
  · rintro ⟨⟨t, h0, h1, rfl⟩, ha, hb⟩
    refine ⟨t, lt_of_le_of_ne h0 ?_, lt_of_le_of_ne h1 ?_, rfl⟩
    · rintro rfl; exact ha (lerp_zero a b)
    · rintro rfl; exact hb (lerp_one a b)

/-! ### collinearity transfer -/

/-- If `c`, `d` are on the line `ab` then any point of the line `ab` is on the line `cd`. -/
theorem cr_trans {a b c d e : Point} (hab : a ≠ b) (hc : cr a b c = 0) (hd : cr a b d = 0)
    (he : cr a b e = 0) : cr c d e = 0 := by
  obtain ⟨s, rfl⟩ := exists_lerp hab hc
  obtain ⟨t, rfl⟩ := exists_lerp hab hd
  obtain ⟨u, rfl⟩ := exists_lerp hab he
  unfold cr lerp; ring

/-- Two lines with two different common points are the same. -/
theorem cr_of_two {a b c d p q : Point} (hpq : p ≠ q) (h1 : cr a b p = 0) (h2 : cr a b q = 0)
    (h3 : cr c d p = 0) (h4 : cr c d q = 0) (hab : a ≠ b) (hcd : c ≠ d) :
    cr a b c = 0 ∧ cr a b d = 0 := by
  have ha : cr p q a = 0 := cr_trans hab h1 h2 (cr_self1 a b)
  have hb : cr p q b = 0 := cr_trans hab h1 h2 (cr_self2 a b)
  have hc : cr p q c = 0 := cr_trans hcd h3 h4 (cr_self1 c d)
  have hd : cr p q d = 0 := cr_trans hcd h3 h4 (cr_self2 c d)
  exact ⟨cr_trans hpq ha hb hc, cr_trans hpq ha hb hd⟩

theorem mid_mem (a b : Point) : lerp a b (1/2) ∈ seg a b := ⟨1/2, by norm_num, by norm_num, rfl⟩

theorem exists_between_pts {a b : Point} (h : a < b) : ∃ m, cr a b m = 0 ∧ a < m ∧ m < b := by
  refine ⟨lerp a b (1/2), cr_lerp_self _ _ _, ?_, ?_⟩
  · have := (lerp_le_lerp h (s := 0) (t := 1/2)).mpr (by norm_num)
    rwa [lerp_zero] at this
  · have := (lerp_le_lerp h (s := 1/2) (t := 1)).mpr (by norm_num)
    rwa [lerp_one] at this

theorem lerp_mem_seg {a b c d : Point} (hc : c ∈ seg a b) (hd : d ∈ seg a b) : seg c d ⊆ seg a b := by
  obtain ⟨s, hs0, hs1, rfl⟩ := hc
  obtain ⟨t, ht0, ht1, rfl⟩ := hd
  rintro p ⟨u, hu0, hu1, rfl⟩
  refine ⟨s + u * (t - s), ?_, ?_, ?_⟩
  · nlinarith
  · nlinarith
  · apply Point.ext' <;> simp only [lerp] <;> ring

/-- A point of a segment splits it. -/
theorem seg_split {a b m : Point} (hm : m ∈ seg a b) : seg a b = seg a m ∪ seg m b := by
  ext p
  constructor
  · intro hp
    rw [mem_seg_iff] at hm hp
    rw [Set.mem_union, mem_seg_iff, mem_seg_iff]
    by_cases hab : a = b
    · subst hab
      left
      have e1 : m = a := by rcases hm.2 with h | h <;> exact le_antisymm h.2 h.1
      have e2 : p = a := by rcases hp.2 with h | h <;> exact le_antisymm h.2 h.1
      subst e1; subst e2; exact ⟨cr_self1 _ _, Or.inl ⟨le_refl _, le_refl _⟩⟩
    · have c1 : cr a m p = 0 := cr_trans hab (cr_self1 a b) hm.1 hp.1
      have c2 : cr m b p = 0 := cr_trans hab hm.1 (cr_self2 a b) hp.1
      rcases le_total p m with h | h <;> rcases hm.2 with h1 | h1 <;> rcases hp.2 with h2 | h2
      · exact Or.inl ⟨c1, Or.inl ⟨h2.1, h⟩⟩
      · exact Or.inr ⟨c2, Or.inr ⟨h2.1, h⟩⟩
      · exact Or.inl ⟨c1, Or.inl ⟨h2.1, h⟩⟩
      · exact Or.inr ⟨c2, Or.inr ⟨h2.1, h⟩⟩
      · exact Or.inr ⟨c2, Or.inl ⟨h, h2.2⟩⟩
      · exact Or.inl ⟨c1, Or.inr ⟨h, h2.2⟩⟩
      · exact Or.inr ⟨c2, Or.inl ⟨h, h2.2⟩⟩
      · exact Or.inl ⟨c1, Or.inr ⟨h, h2.2⟩⟩
  · rintro (h | h)
    · exact lerp_mem_seg (start_mem_seg _ _) hm h
    · exact lerp_mem_seg hm (end_mem_seg _ _) h

end Rene
