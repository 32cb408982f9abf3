import Verif.Lemmas.Seidel.Split2
import Mathlib.Tactic.LinearCombination
import Mathlib.Tactic.FieldSimp
import Mathlib.Tactic.Ring
import Mathlib.Order.Interval.Set.Infinite
import Mathlib.Algebra.Order.Field.Rat
import Mathlib.Logic.Relation

/-! The geometry behind a trapezoidation of edges which do not cross: end points have abscissas ordered as the
points, edges are graphs of affine functions. -/

namespace Rene.Seidel
open Rene Spec

/-- Abscissas and ordinates of the end points, lines of the edges: `n` edges and `k` end points, followed by the
sides and the corners of the box. -/
structure Geo where
  edges : List Edge
  endpoints : List Point
  n : ℕ
  k : ℕ
  xv : ℕ → ℚ
  yv : ℕ → ℚ
  K : ℕ → ℚ
  C : ℕ → ℚ

namespace Geo
variable (g : Geo)

/-- The line of an edge. -/
def f (i : ℕ) (t : ℚ) : ℚ := g.K i * t + g.C i
def lft (e : ℕ) : ℕ := (edgeAt g.edges e).left
def rgt (e : ℕ) : ℕ := (edgeAt g.edges e).right

/-- The edge is over the abscissa; sides of the box are unbounded. -/
def Sp (e : ℕ) (t : ℚ) : Prop := e < g.n → g.xv (g.lft e) ≤ t ∧ t ≤ g.xv (g.rgt e)

/-- Positions of points which may bound a trapezoid. -/
def V (i : ℕ) : Prop := i < g.k ∨ i = g.k + 2 ∨ i = g.k + 3

structure Good : Prop where
  lt : ∀ i j, g.V i → g.V j → (pt g.endpoints i < pt g.endpoints j ↔ g.xv i < g.xv j)
  eq : ∀ i j, g.V i → g.V j → (pt g.endpoints i = pt g.endpoints j ↔ g.xv i = g.xv j)
  inx : ∀ i < g.k, g.xv (g.k + 2) < g.xv i ∧ g.xv i < g.xv (g.k + 3)
  box : g.xv (g.k + 2) < g.xv (g.k + 3)
  lft : ∀ e < g.n, g.lft e < g.k
  rgt : ∀ e < g.n, g.rgt e < g.k
  pos : ∀ e < g.n, g.xv (g.lft e) < g.xv (g.rgt e)
  onL : ∀ e < g.n, g.yv (g.lft e) = g.f e (g.xv (g.lft e))
  onR : ∀ e < g.n, g.yv (g.rgt e) = g.f e (g.xv (g.rgt e))
  yeq : ∀ i < g.k, ∀ j < g.k, g.xv i = g.xv j → g.yv i = g.yv j
  ccw : ∀ e < g.n, ∀ i < g.k, ((edgeAt g.edges e).orientationOf (pt g.endpoints i) g.endpoints = .counterclockwise ↔
    g.f e (g.xv i) < g.yv i)
  cw : ∀ e < g.n, ∀ i < g.k, ((edgeAt g.edges e).orientationOf (pt g.endpoints i) g.endpoints = .clockwise ↔
    g.yv i < g.f e (g.xv i))
  nc : ∀ i < g.n, ∀ j < g.n, i ≠ j → ∀ t, g.Sp i t → g.Sp j t → g.f i t = g.f j t →
    t = g.xv (g.lft i) ∨ t = g.xv (g.rgt i)
  own : ∀ i < g.k, ∃ e < g.n, i = g.lft e ∨ i = g.rgt e
  top : ∀ i < g.k, g.yv i < g.f g.n (g.xv i)
  bot : ∀ i < g.k, g.f (g.n + 1) (g.xv i) < g.yv i
  tb : ∀ t, g.f (g.n + 1) t < g.f g.n t

variable {g}

/-- An affine function between two abscissas. -/
theorem f_between (i j : ℕ) {u v : ℚ} (h1 : g.f i u < g.f j u) (h2 : g.f j v < g.f i v) :
    ∃ w, g.f i w = g.f j w ∧ ((u < w ∧ w < v) ∨ (v < w ∧ w < u)) := by
  have hd : 0 < (g.f i v - g.f j v) - (g.f i u - g.f j u) := by linarith
  set d := (g.f i v - g.f j v) - (g.f i u - g.f j u) with hdd
  refine ⟨(u * (g.f i v - g.f j v) - v * (g.f i u - g.f j u)) / d, ?_, ?_⟩
  · have hne : d ≠ 0 := ne_of_gt hd
    unfold f at *
    field_simp
    rw [hdd]; ring
  · rcases lt_trichotomy u v with h | h | h
    · left
      constructor
      · rw [lt_div_iff₀ hd, hdd]; nlinarith
      · rw [div_lt_iff₀ hd, hdd]; nlinarith
    · subst h; linarith
    · right
      constructor
      · rw [lt_div_iff₀ hd, hdd]; nlinarith
      · rw [div_lt_iff₀ hd, hdd]; nlinarith

/-- A strict inequality between affine functions at the ends holds between them. -/
theorem f_convex (i j : ℕ) {u v w : ℚ} (h1 : g.f i u < g.f j u) (h2 : g.f i v < g.f j v) (huw : u ≤ w) (hwv : w ≤ v) :
    g.f i w < g.f j w := by
  by_contra h
  push Not at h
  rcases lt_or_eq_of_le h with h | h
  · obtain ⟨x, hx, h3⟩ := f_between i j h1 h
    obtain ⟨z, hz, h4⟩ := f_between i j h2 h
    have hxz : x ≠ z := by rintro rfl; rcases h3 with h3 | h3 <;> rcases h4 with h4 | h4 <;> linarith [h3.1, h3.2, h4.1, h4.2]
    unfold f at *
    have : (g.K i - g.K j) * (x - z) = 0 := by linear_combination hx - hz
    rcases mul_eq_zero.mp this with q | q
    · have q' : g.K i = g.K j := by linarith
      rw [q'] at h1 hx; linarith
    · exact hxz (by linarith)
  · unfold f at *
    have e1 : (g.K i - g.K j) * (u - w) < 0 := by linarith
    have e2 : (g.K i - g.K j) * (v - w) < 0 := by linarith
    rcases le_or_gt 0 (g.K i - g.K j) with q | q
    · nlinarith [mul_nonneg q (by linarith : 0 ≤ v - w)]
    · nlinarith [mul_nonneg (le_of_lt (neg_pos.mpr q)) (by linarith : 0 ≤ w - u)]

theorem Good.top_edge (h : g.Good) {e : ℕ} (he : e < g.n) {t : ℚ} (ht : g.Sp e t) : g.f e t < g.f g.n t := by
  obtain ⟨h1, h2⟩ := ht he
  exact f_convex e g.n (by rw [← h.onL e he]; exact h.top _ (h.lft e he))
    (by rw [← h.onR e he]; exact h.top _ (h.rgt e he)) h1 h2

theorem Good.bot_edge (h : g.Good) {e : ℕ} (he : e < g.n) {t : ℚ} (ht : g.Sp e t) : g.f (g.n + 1) t < g.f e t := by
  obtain ⟨h1, h2⟩ := ht he
  exact f_convex (g.n + 1) e (by rw [← h.onL e he]; exact h.bot _ (h.lft e he))
    (by rw [← h.onR e he]; exact h.bot _ (h.rgt e he)) h1 h2

theorem Sp.mono {e : ℕ} {s t w : ℚ} (h1 : g.Sp e s) (h2 : g.Sp e t) (hw : s ≤ w) (hw' : w ≤ t) : g.Sp e w :=
  fun he => ⟨(h1 he).1.trans hw, hw'.trans (h2 he).2⟩

/-- Inside of a common interval two edges do not meet. -/
theorem Good.ne (h : g.Good) {i j : ℕ} (hi : i < g.n + 2) (hj : j < g.n + 2) (hij : i ≠ j) {s t w : ℚ}
    (h1 : g.Sp i s) (h2 : g.Sp i t) (h3 : g.Sp j s) (h4 : g.Sp j t) (hw : s < w) (hw' : w < t) :
    g.f i w ≠ g.f j w := by
  have si := h1.mono h2 hw.le hw'.le
  have sj := h3.mono h4 hw.le hw'.le
  rcases Nat.lt_or_ge i g.n with a | a
  · rcases Nat.lt_or_ge j g.n with b | b
    · intro q
      rcases h.nc i a j b hij w si sj q with q | q
      · have := (h1 a).1; linarith
      · have := (h2 a).2; linarith
    · have t1 := h.top_edge a si
      have t2 := h.bot_edge a si
      have : j = g.n ∨ j = g.n + 1 := by omega
      rcases this with rfl | rfl
      · exact ne_of_lt t1
      · exact ne_of_gt t2
  · rcases Nat.lt_or_ge j g.n with b | b
    · have t1 := h.top_edge b sj
      have t2 := h.bot_edge b sj
      have : i = g.n ∨ i = g.n + 1 := by omega
      rcases this with rfl | rfl
      · exact ne_of_gt t1
      · exact ne_of_lt t2
    · have := h.tb w
      have a' : i = g.n ∨ i = g.n + 1 := by omega
      have b' : j = g.n ∨ j = g.n + 1 := by omega
      rcases a' with rfl | rfl <;> rcases b' with rfl | rfl
      · exact absurd rfl hij
      · exact ne_of_gt this
      · exact ne_of_lt this
      · exact absurd rfl hij

/-- The order of two edges is the same inside of a common interval. -/
theorem Good.ord (h : g.Good) {i j : ℕ} (hi : i < g.n + 2) (hj : j < g.n + 2) {s t u w : ℚ}
    (h1 : g.Sp i s) (h2 : g.Sp i t) (h3 : g.Sp j s) (h4 : g.Sp j t) (hu : s ≤ u) (hu' : u ≤ t)
    (hlt : g.f i u < g.f j u) (hw : s < w) (hw' : w < t) : g.f i w < g.f j w := by
  have hij : i ≠ j := by rintro rfl; exact lt_irrefl _ hlt
  by_contra hc
  push Not at hc
  rcases lt_or_eq_of_le hc with hc | hc
  · obtain ⟨x, hx, h5⟩ := f_between i j hlt hc
    refine h.ne hi hj hij h1 h2 h3 h4 ?_ ?_ hx
    · rcases h5 with h5 | h5 <;> linarith [h5.1, h5.2]
    · rcases h5 with h5 | h5 <;> linarith [h5.1, h5.2]
  · exact h.ne hi hj hij h1 h2 h3 h4 hw hw' hc.symm

/-- … and weakly at its ends. -/
theorem Good.ord_le (h : g.Good) {i j : ℕ} (hi : i < g.n + 2) (hj : j < g.n + 2) {s t u w : ℚ}
    (h1 : g.Sp i s) (h2 : g.Sp i t) (h3 : g.Sp j s) (h4 : g.Sp j t) (hu : s < u) (hu' : u < t)
    (hlt : g.f i u < g.f j u) (hw : s ≤ w) (hw' : w ≤ t) : g.f i w ≤ g.f j w := by
  have hij : i ≠ j := by rintro rfl; exact lt_irrefl _ hlt
  by_contra hc
  push Not at hc
  obtain ⟨x, hx, h5⟩ := f_between i j hlt hc
  refine h.ne hi hj hij h1 h2 h3 h4 ?_ ?_ hx
  · rcases h5 with h5 | h5 <;> linarith [h5.1, h5.2]
  · rcases h5 with h5 | h5 <;> linarith [h5.1, h5.2]

/-- A strict inequality between affine functions holds nearby. -/
theorem f_near (i j : ℕ) {u : ℚ} (h : g.f i u < g.f j u) : ∃ δ > 0, ∀ w, |w - u| < δ → g.f i w < g.f j w := by
  set d := g.f j u - g.f i u with hd
  have hpos : 0 < d := by linarith
  set m := |g.K j - g.K i| + 1 with hm
  have hmp : 0 < m := by have := abs_nonneg (g.K j - g.K i); linarith
  refine ⟨d / m, div_pos hpos hmp, ?_⟩
  intro w hw
  rw [lt_div_iff₀ hmp] at hw
  have e : g.f j w - g.f i w = d + (g.K j - g.K i) * (w - u) := by rw [hd]; unfold f; ring
  have e2 : -( |g.K j - g.K i| * |w - u|) ≤ (g.K j - g.K i) * (w - u) := by
    rw [← abs_mul]; exact neg_abs_le _
  have e3 : |g.K j - g.K i| * |w - u| ≤ m * |w - u| :=
    mul_le_mul_of_nonneg_right (by linarith) (abs_nonneg _)
  nlinarith

theorem exists_between_notin {a b : ℚ} (h : a < b) (S : Finset ℚ) : ∃ x, a < x ∧ x < b ∧ x ∉ S := by
  have hinf : (Set.Ioo a b).Infinite := Set.Ioo_infinite h
  obtain ⟨x, hx, hn⟩ := hinf.exists_notMem_finset S
  exact ⟨x, hx.1, hx.2, hn⟩

end Geo

/-! ### Walks -/

/-- The next node of a search for the point with the given abscissa and ordinate. -/
def nxt (g : Geo) (nodes : Nodes) (t y : ℚ) (i : ℕ) : Option ℕ :=
  match inner nodes i with
  | some (.x p l r) => if t < g.xv p then some l else if g.xv p < t then some r else none
  | some (.y e b a) => if g.f e t < y then some a else if y < g.f e t then some b else none
  | _ => none

def Walk (g : Geo) (nodes : Nodes) (t y : ℚ) : ℕ → ℕ → Prop :=
  Relation.ReflTransGen fun i j => nxt g nodes t y i = some j

theorem nxt_child {g : Geo} {nodes : Nodes} {t y : ℚ} {i j : ℕ} (h : nxt g nodes t y i = some j) :
    ∃ n, inner nodes i = some n ∧ j ∈ n.children := by
  unfold nxt at h
  split at h
  · next hn =>
    refine ⟨_, hn, ?_⟩
    split_ifs at h <;> cases h <;> simp [Node.children]
  · next hn =>
    refine ⟨_, hn, ?_⟩
    split_ifs at h <;> cases h <;> simp [Node.children]
  · simp at h

theorem nxt_leaf {g : Geo} {nodes : Nodes} {t y : ℚ} {i : ℕ} (h : isLeaf nodes i = true) :
    nxt g nodes t y i = none := by
  unfold nxt; rw [leaf_not_inner h]

theorem Walk.leaf_eq {g : Geo} {nodes : Nodes} {t y : ℚ} {i j : ℕ} (h : Walk g nodes t y i j)
    (hi : isLeaf nodes i = true) : j = i := by
  rcases Relation.ReflTransGen.cases_head h with h | ⟨c, h, _⟩
  · exact h.symm
  · rw [nxt_leaf hi] at h; cases h

theorem Walk.unique {g : Geo} {nodes : Nodes} {t y : ℚ} {i j k : ℕ} (h1 : Walk g nodes t y i j)
    (h2 : Walk g nodes t y i k) (hj : isLeaf nodes j = true) (hk : isLeaf nodes k = true) : j = k := by
  induction h1 using Relation.ReflTransGen.head_induction_on with
  | refl => exact (h2.leaf_eq hj).symm
  | head hstep _ ih =>
    rcases Relation.ReflTransGen.cases_head h2 with h | ⟨c, h, h3⟩
    · subst h; rw [nxt_leaf hk] at hstep; cases hstep
    · rw [hstep] at h; cases h
      exact ih h3

/-- The trapezoid contains the point inside. -/
def Reg (g : Geo) (T : Trap) (t y : ℚ) : Prop :=
  g.xv T.left < t ∧ t < g.xv T.right ∧ g.f T.below t < y ∧ y < g.f T.above t

def InBox (g : Geo) (t y : ℚ) : Prop :=
  g.xv (g.k + 2) < t ∧ t < g.xv (g.k + 3) ∧ g.f (g.n + 1) t < y ∧ y < g.f g.n t

/-- A point of the box which is not at an abscissa of an end point. -/
def Gen (g : Geo) (t y : ℚ) : Prop := InBox g t y ∧ ∀ i < g.k, t ≠ g.xv i

end Rene.Seidel
