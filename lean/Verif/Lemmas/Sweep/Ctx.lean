import Verif.Model.Linear
import Verif.Lemmas.Geometry
import Mathlib.Data.Finset.Card
import Mathlib.Data.Finset.Prod
import Mathlib.Data.Finset.Range
import Mathlib.Data.Prod.Lex

/-! Geometry of the linear sweep: all original segments are graphs of affine functions over a sheared
abscissa, which orders the relevant points lexicographically. -/

namespace Rene.Sweep
open Rene Spec

/-- The fixed data of a run: relevant points `P`, shear `ε`, number of segments `N`, of which `F` belong to
the first operand, and for each segment its line `y = K * X + C` and its end points. -/
structure Ctx where
  P : Finset Point
  ε : ℚ
  N : ℕ
  F : ℕ
  K : ℕ → ℚ
  C : ℕ → ℚ
  A : ℕ → Point
  B : ℕ → Point

namespace Ctx
variable (c : Ctx)

/-- Sheared abscissa. -/
def X (p : Point) : ℚ := p.x + c.ε * p.y

/-- The line of a segment. -/
def f (i : ℕ) (t : ℚ) : ℚ := c.K i * t + c.C i

/-- The point is on the line of the segment. -/
def On (i : ℕ) (p : Point) : Prop := p.y = c.f i (c.X p)

/-- Same line. -/
def Coll (i j : ℕ) : Prop := c.K i = c.K j ∧ c.C i = c.C j

/-- What is required of the fixed data for arbitrary non-degenerate segments. -/
structure Good0 : Prop where
  mono : ∀ p ∈ c.P, ∀ q ∈ c.P, p < q → c.X p < c.X q
  memA : ∀ i < c.N, c.A i ∈ c.P
  memB : ∀ i < c.N, c.B i ∈ c.P
  lt : ∀ i < c.N, c.X (c.A i) < c.X (c.B i)
  onA : ∀ i < c.N, c.On i (c.A i)
  onB : ∀ i < c.N, c.On i (c.B i)
  cross : ∀ i < c.N, ∀ j < c.N, ¬ c.Coll i j → ∀ q, c.On i q → c.On j q →
    c.X (c.A i) ≤ c.X q → c.X q ≤ c.X (c.B i) → c.X (c.A j) ≤ c.X q → c.X q ≤ c.X (c.B j) → q ∈ c.P
  cases : ∀ q ∈ c.P, (∃ i < c.N, q = c.A i ∨ q = c.B i) ∨ ∃ i < c.N, ∃ j < c.N, ¬ c.Coll i j ∧ c.On i q ∧
    c.On j q ∧ (c.X (c.A i) ≤ c.X q ∧ c.X q ≤ c.X (c.B i)) ∧ (c.X (c.A j) ≤ c.X q ∧ c.X q ≤ c.X (c.B j))

/-- What is required of the fixed data: additionally segments of one operand do not overlap. -/
structure Good : Prop extends Good0 c where
  noOv : ∀ i < c.N, ∀ j < c.N, i ≠ j → (i < c.F ↔ j < c.F) → c.Coll i j →
    c.X (c.B i) ≤ c.X (c.A j) ∨ c.X (c.B j) ≤ c.X (c.A i)

variable {c}

theorem Coll.symm {i j : ℕ} (h : c.Coll i j) : c.Coll j i := ⟨h.1.symm, h.2.symm⟩
theorem Coll.trans {i j k : ℕ} (h : c.Coll i j) (h' : c.Coll j k) : c.Coll i k :=
  ⟨h.1.trans h'.1, h.2.trans h'.2⟩
theorem Coll.refl (i : ℕ) : c.Coll i i := ⟨rfl, rfl⟩
theorem Coll.f_eq {i j : ℕ} (h : c.Coll i j) (t : ℚ) : c.f i t = c.f j t := by
  unfold f; rw [h.1, h.2]

theorem coll_of_two {i j : ℕ} {s t : ℚ} (hst : s ≠ t) (h1 : c.f i s = c.f j s) (h2 : c.f i t = c.f j t) :
    c.Coll i j := by
  unfold f at h1 h2
  have : (c.K i - c.K j) * (s - t) = 0 := by linear_combination h1 - h2
  have hk : c.K i = c.K j := by
    rcases mul_eq_zero.mp this with h | h
    · linarith
    · exact absurd (by linarith) hst
  exact ⟨hk, by rw [hk] at h1; linarith⟩

theorem Good0.lt_iff (h : c.Good0) {p q : Point} (hp : p ∈ c.P) (hq : q ∈ c.P) : p < q ↔ c.X p < c.X q := by
  constructor
  · exact h.mono p hp q hq
  · intro hx
    rcases lt_trichotomy p q with g | g | g
    · exact g
    · subst g; exact absurd hx (lt_irrefl _)
    · exact absurd (h.mono q hq p hp g) hx.asymm

theorem Good0.le_iff (h : c.Good0) {p q : Point} (hp : p ∈ c.P) (hq : q ∈ c.P) : p ≤ q ↔ c.X p ≤ c.X q := by
  rw [← not_lt, ← not_lt, h.lt_iff hq hp]

theorem Good0.eq_iff (h : c.Good0) {p q : Point} (hp : p ∈ c.P) (hq : q ∈ c.P) : p = q ↔ c.X p = c.X q := by
  rw [le_antisymm_iff, le_antisymm_iff, h.le_iff hp hq, h.le_iff hq hp]

theorem On.eq_of_X {i : ℕ} {p q : Point} (hp : c.On i p) (hq : c.On i q) (hx : c.X p = c.X q) : p = q := by
  unfold On at *
  have hy : p.y = q.y := by rw [hp, hq, hx]
  refine Point.ext' ?_ hy
  unfold X at hx; rw [hy] at hx; linarith

theorem On.coll {i j : ℕ} {p : Point} (h : c.Coll i j) (hp : c.On i p) : c.On j p := by
  unfold On at *; rw [hp, h.f_eq]

/-- The cross product against a piece of a line. -/
theorem cr_on {i : ℕ} {l r q : Point} (hl : c.On i l) (hr : c.On i r) :
    cr l r q = (c.X r - c.X l) * (q.y - c.f i (c.X q)) := by
  unfold On f X at *
  unfold cr
  have hrl : r.y - l.y = c.K i * ((r.x + c.ε * r.y) - (l.x + c.ε * l.y)) := by linear_combination hr - hl
  linear_combination (-(q.x - l.x) - c.ε * (q.y - l.y)) * hrl - ((r.x + c.ε * r.y) - (l.x + c.ε * l.y)) * hl

theorem orient_on {i : ℕ} {l r q : Point} (hl : c.On i l) (hr : c.On i r) (h : c.X l < c.X r) :
    (orient l r q = .counterclockwise ↔ c.f i (c.X q) < q.y) ∧
    (orient l r q = .clockwise ↔ q.y < c.f i (c.X q)) ∧
    (orient l r q = .collinear ↔ q.y = c.f i (c.X q)) := by
  have hp : 0 < c.X r - c.X l := by linarith
  rw [orient_ccw, orient_cw, orient_collinear, cr_on hl hr]
  refine ⟨?_, ?_, ?_⟩
  · rw [mul_pos_iff_of_pos_left hp]; constructor <;> intro <;> linarith
  · rw [mul_neg_iff]
    constructor
    · rintro (⟨_, g⟩ | ⟨g, _⟩)
      · linarith
      · linarith
    · intro g; left; exact ⟨hp, by linarith⟩
  · rw [mul_eq_zero]
    constructor
    · rintro (g | g) <;> linarith
    · intro g; right; linarith

theorem orient_on_rev {i : ℕ} {l r q : Point} (hl : c.On i l) (hr : c.On i r) (h : c.X l < c.X r) :
    (orient r l q = .counterclockwise ↔ q.y < c.f i (c.X q)) ∧
    (orient r l q = .clockwise ↔ c.f i (c.X q) < q.y) ∧
    (orient r l q = .collinear ↔ q.y = c.f i (c.X q)) := by
  have hp : c.X l - c.X r < 0 := by linarith
  rw [orient_ccw, orient_cw, orient_collinear, cr_on hr hl]
  refine ⟨?_, ?_, ?_⟩
  · rw [mul_pos_iff]
    constructor
    · rintro (⟨g, _⟩ | ⟨_, g⟩)
      · linarith
      · linarith
    · intro g; right; exact ⟨hp, by linarith⟩
  · rw [mul_neg_iff]
    constructor
    · rintro (⟨g, _⟩ | ⟨_, g⟩)
      · linarith
      · linarith
    · intro g; right; exact ⟨hp, by linarith⟩
  · rw [mul_eq_zero]
    constructor
    · rintro (g | g) <;> linarith
    · intro g; right; linarith

/-- The intersection formula gives the common point of two different, non-parallel lines. -/
theorem intersection_on {i j : ℕ} {l r l' r' : Point} (hl : c.On i l) (hr : c.On i r) (hl' : c.On j l')
    (hr' : c.On j r') (h : c.X l < c.X r) (h' : c.X l' < c.X r') (hk : c.K i ≠ c.K j) :
    c.On i (toSegmentsIntersection l r l' r') ∧ c.On j (toSegmentsIntersection l r l' r') := by
  have hd : crossMultiply l r l' r' = (c.X r - c.X l) * (c.X r' - c.X l') * (c.K j - c.K i) := by
    unfold On f X at *
    unfold crossMultiply
    have e1 : r.y - l.y = c.K i * ((r.x + c.ε * r.y) - (l.x + c.ε * l.y)) := by linear_combination hr - hl
    have e2 : r'.y - l'.y = c.K j * ((r'.x + c.ε * r'.y) - (l'.x + c.ε * l'.y)) := by
      linear_combination hr' - hl'
    linear_combination ((r.x + c.ε * r.y) - (l.x + c.ε * l.y)) * e2 - ((r'.x + c.ε * r'.y) - (l'.x + c.ε * l'.y)) * e1
  have hd0 : crossMultiply l r l' r' ≠ 0 := by
    rw [hd]
    refine mul_ne_zero (mul_ne_zero (by linarith) (by linarith)) ?_
    intro g; exact hk (by linarith)
  have o1 : orient l r (toSegmentsIntersection l r l' r') = .collinear := by
    rw [orient_collinear]; unfold cr toSegmentsIntersection; simp only; ring
  have o2 : orient l' r' (toSegmentsIntersection l r l' r') = .collinear := by
    rw [orient_collinear]
    unfold toSegmentsIntersection toSegmentsIntersectionScale
    have : cr l' r' ⟨l.x + (r.x - l.x) * (crossMultiply l l' l' r' / crossMultiply l r l' r'),
        l.y + (r.y - l.y) * (crossMultiply l l' l' r' / crossMultiply l r l' r')⟩ =
        cr l' r' l - crossMultiply l r l' r' * (crossMultiply l l' l' r' / crossMultiply l r l' r') := by
      generalize crossMultiply l l' l' r' / crossMultiply l r l' r' = s
      unfold cr crossMultiply; simp only; ring
    simp only
    rw [this, mul_div_cancel₀ _ hd0]
    unfold cr crossMultiply; ring
  exact ⟨((orient_on hl hr h).2.2).mp o1, ((orient_on hl' hr' h').2.2).mp o2⟩

end Ctx
end Rene.Sweep
