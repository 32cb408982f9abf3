import Verif.Lemmas.Face.Darts
import Mathlib.Tactic.Linarith
import Mathlib.Tactic.FieldSimp

/-! The sides of the darts of a plane graph drawn with straight edges. -/

namespace Rene.Face

/-! ### Signs of linear functions -/

theorem sign_const {p q a b : ℚ} (hab : a ≤ b) (h : ∀ x, a ≤ x → x ≤ b → p * x + q ≠ 0) :
    0 < p * a + q ↔ 0 < p * b + q := by
  by_contra hc
  have ha := h a le_rfl hab
  have hb := h b hab le_rfl
  have hp : p ≠ 0 := by
    rintro rfl
    exact hc (by simp)
  have hx : p * (-q / p) + q = 0 := by field_simp; ring
  refine h (-q / p) ?_ ?_ hx
  · by_contra k
    rw [not_le] at k
    apply hc
    have k2 : -q / p < b := lt_of_lt_of_le k hab
    rcases lt_or_gt_of_ne hp with hp | hp
    · have e1 := mul_lt_mul_of_neg_left k hp
      have e2 := mul_lt_mul_of_neg_left k2 hp
      constructor <;> intro <;> linarith
    · have e1 := mul_lt_mul_of_pos_left k hp
      have e2 := mul_lt_mul_of_pos_left k2 hp
      constructor <;> intro <;> linarith
  · by_contra k
    rw [not_le] at k
    apply hc
    have k2 : a < -q / p := lt_of_le_of_lt hab k
    rcases lt_or_gt_of_ne hp with hp | hp
    · have e1 := mul_lt_mul_of_neg_left k hp
      have e2 := mul_lt_mul_of_neg_left k2 hp
      constructor <;> intro <;> linarith
    · have e1 := mul_lt_mul_of_pos_left k hp
      have e2 := mul_lt_mul_of_pos_left k2 hp
      constructor <;> intro <;> linarith

/-- The sign of a linear function without zeros in an interval, just after a point. -/
theorem sign_after {p q u w t m : ℚ} (h : ∀ x, u < x → x < w → p * x + q ≠ 0) (h1 : u ≤ t) (h2 : t < w) (h3 : u < m)
    (h4 : m < w) : (0 < p * t + q ∨ p * t + q = 0 ∧ 0 < p) ↔ 0 < p * m + q := by
  by_cases hz : p * t + q = 0
  · have htu : t = u := le_antisymm (not_lt.mp fun k => h t k h2 hz) h1
    subst htu
    have : p * m + q = p * (m - t) := by linarith
    rw [this, hz]
    have hm : 0 < m - t := by linarith
    constructor
    · rintro (k | ⟨_, k⟩)
      · exact absurd k (lt_irrefl _)
      · exact mul_pos k hm
    · intro k
      exact Or.inr ⟨rfl, (pos_iff_pos_of_mul_pos k).mpr hm⟩
  · have hne : ∀ x, u ≤ x → x < w → (x = t ∨ u < x) → p * x + q ≠ 0 := by
      rintro x _ x2 (rfl | k)
      · exact hz
      · exact h x k x2
    have e : 0 < p * t + q ↔ 0 < p * m + q := by
      rcases le_total t m with k | k
      · refine sign_const k fun x x1 x2 => hne x (by linarith) (by linarith) ?_
        rcases eq_or_lt_of_le x1 with z | z
        · exact Or.inl z.symm
        · exact Or.inr (by linarith)
      · exact (sign_const k fun x x1 x2 => h x (by linarith) (by linarith)).symm
    rw [← e]
    constructor
    · rintro (k | ⟨k, _⟩)
      · exact k
      · exact absurd k hz
    · exact Or.inl

/-- The sign of a linear function without zeros in an interval at its end. -/
theorem sign_end {p q u w m : ℚ} (h : ∀ x, u < x → x < w → p * x + q ≠ 0) (hw : p * w + q ≠ 0) (h3 : u < m)
    (h4 : m < w) : 0 < p * w + q ↔ 0 < p * m + q := by
  refine (sign_const h4.le fun x x1 x2 => ?_).symm
  rcases eq_or_lt_of_le x2 with rfl | z
  · exact hw
  · exact h x (by linarith) z

/-! ### Graphs drawn with straight edges -/

/-- One bit. -/
def bit (x : ZMod 2) : Bool := decide (x = 1)

theorem z_bit (x : ZMod 2) : z (bit x) = x := by revert x; decide

theorem bit_z (b : Bool) : bit (z b) = b := by cases b <;> decide

theorem bit_add (x y : ZMod 2) : bit (x + y) = (bit x ^^ bit y) := by revert x y; decide

variable {δ : Type} [Fintype δ] [DecidableEq δ]

/-- The edges lie on the lines `k d * t + c d`; `y` are the ordinates of the vertices. -/
structure Geo (D : Darts δ) (k c : δ → ℚ) (y : ℚ → ℚ) : Prop where
  opp_opp : ∀ d, D.opp (D.opp d) = d
  lf_opp : ∀ d, D.lf (D.opp d) = !D.lf d
  lt : ∀ d, D.lf d = true → D.v d < D.v (D.opp d)
  kopp : ∀ d, k (D.opp d) = k d
  copp : ∀ d, c (D.opp d) = c d
  on : ∀ d, k d * D.v d + c d = y (D.v d)
  vert : ∀ d j, D.lf j = true → D.v j < D.v d → D.v d < D.v (D.opp j) → k j * D.v d + c j ≠ y (D.v d)
  cross : ∀ i j, D.lf i = true → D.lf j = true → i ≠ j → ∀ t, D.v i < t → t < D.v (D.opp i) → D.v j < t →
    t < D.v (D.opp j) → k i * t + c i ≠ k j * t + c j
  rank : ∀ b d, D.lf b = true → D.lf d = true → (D.v b < D.v d ∨ D.v b = D.v d ∧ k b < k d) → D.rank b < D.rank d

variable {D : Darts δ} {k c : δ → ℚ} {y : ℚ → ℚ}

/-- The edge `j` passes below the position given by a height and a slope, just after `t`. -/
def under (D : Darts δ) (k c : δ → ℚ) (t Y κ : ℚ) (j : δ) : Bool :=
  D.lf j && decide (D.v j ≤ t ∧ t < D.v (D.opp j) ∧ (k j * t + c j < Y ∨ k j * t + c j = Y ∧ k j < κ))

theorem under_iff {t Y κ : ℚ} {j : δ} : under D k c t Y κ j = true ↔
    D.lf j = true ∧ D.v j ≤ t ∧ t < D.v (D.opp j) ∧ (k j * t + c j < Y ∨ k j * t + c j = Y ∧ k j < κ) := by
  unfold under
  rw [Bool.and_eq_true, decide_eq_true_iff]

/-- The number of edges of `L` below the edge `i`, just after `t`. -/
def dn (D : Darts δ) (k c : δ → ℚ) (L : δ → Bool) (i : δ) (t : ℚ) : ZMod 2 :=
  ∑ j, z (L j && under D k c t (k i * t + c i) (k i) j)

open Classical in
/-- The part of the plane to the left of a dart: above it when it is directed to the right, below it otherwise. -/
noncomputable def sideOf (D : Darts δ) (k c : δ → ℚ) (L : δ → Bool) (d : δ) : Bool :=
  if D.lf d = true then bit (dn D k c L d (D.v d)) ^^ L d else bit (dn D k c L (D.opp d) (D.v (D.opp d)))

theorem Geo.mid (G : Geo D k c y) {i j : δ} (hi : D.lf i = true) (hj : D.lf j = true) (hij : j ≠ i) {u w : ℚ}
    (h1 : D.v i ≤ u) (h2 : D.v j ≤ u) (h3 : w ≤ D.v (D.opp i)) (h4 : w ≤ D.v (D.opp j)) :
    ∀ x, u < x → x < w → (k i - k j) * x + (c i - c j) ≠ 0 := by
  intro x x1 x2 e
  refine G.cross i j hi hj hij.symm x (by linarith) (by linarith) (by linarith) (by linarith) ?_
  linarith

/-- Along an edge the edges below it change only at vertices. -/
theorem Geo.under_xor (G : Geo D k c y) {i : δ} (hi : D.lf i = true) {t1 t2 : ℚ} (h1 : D.v i ≤ t1) (h12 : t1 ≤ t2)
    (h2 : t2 < D.v (D.opp i)) {j : δ} (hj : D.lf j = true) :
    (under D k c t1 (k i * t1 + c i) (k i) j ^^ under D k c t2 (k i * t2 + c i) (k i) j) =
    (decide (t1 < D.v j ∧ D.v j ≤ t2 ∧ y (D.v j) < k i * D.v j + c i) ^^
      decide (t1 < D.v (D.opp j) ∧ D.v (D.opp j) ≤ t2 ∧ y (D.v (D.opp j)) < k i * D.v (D.opp j) + c i)) := by
  have hjl := G.lt j hj
  have hlex : ∀ t, (k j * t + c j < k i * t + c i ∨ k j * t + c j = k i * t + c i ∧ k j < k i) ↔
      (0 < (k i - k j) * t + (c i - c j) ∨ (k i - k j) * t + (c i - c j) = 0 ∧ 0 < k i - k j) := by
    intro t
    constructor
    · rintro (z | ⟨z, z'⟩)
      · left; linarith
      · right; constructor <;> linarith
    · rintro (z | ⟨z, z'⟩)
      · left; linarith
      · right; constructor <;> linarith
  by_cases hij : j = i
  · subst hij
    have e1 : under D k c t1 (k j * t1 + c j) (k j) j = false := by
      rw [← Bool.not_eq_true, under_iff]
      rintro ⟨_, _, _, z | ⟨_, z⟩⟩ <;> exact absurd z (lt_irrefl _)
    have e2 : under D k c t2 (k j * t2 + c j) (k j) j = false := by
      rw [← Bool.not_eq_true, under_iff]
      rintro ⟨_, _, _, z | ⟨_, z⟩⟩ <;> exact absurd z (lt_irrefl _)
    rw [e1, e2, decide_eq_false (by rintro ⟨z, _⟩; linarith), decide_eq_false (by rintro ⟨_, z, _⟩; linarith)]
  by_cases hb : D.v (D.opp j) ≤ t1
  · have e1 : under D k c t1 (k i * t1 + c i) (k i) j = false := by
      rw [← Bool.not_eq_true, under_iff]
      rintro ⟨_, _, z, _⟩; linarith
    have e2 : under D k c t2 (k i * t2 + c i) (k i) j = false := by
      rw [← Bool.not_eq_true, under_iff]
      rintro ⟨_, _, z, _⟩; linarith
    rw [e1, e2, decide_eq_false (by rintro ⟨z, _⟩; linarith), decide_eq_false (by rintro ⟨z, _⟩; linarith)]
  by_cases ha : t2 < D.v j
  · have e1 : under D k c t1 (k i * t1 + c i) (k i) j = false := by
      rw [← Bool.not_eq_true, under_iff]
      rintro ⟨_, z, _⟩; linarith
    have e2 : under D k c t2 (k i * t2 + c i) (k i) j = false := by
      rw [← Bool.not_eq_true, under_iff]
      rintro ⟨_, z, _⟩; linarith
    rw [e1, e2, decide_eq_false (by rintro ⟨_, z, _⟩; linarith), decide_eq_false (by rintro ⟨_, z, _⟩; linarith)]
  rw [not_le] at hb
  rw [not_lt] at ha
  have il := G.lt i hi
  set u := max (D.v i) (D.v j) with hu
  set w := min (D.v (D.opp i)) (D.v (D.opp j)) with hw
  have huw : u < w := by
    rw [hu, hw, max_lt_iff, lt_min_iff, lt_min_iff]
    exact ⟨⟨il, by linarith⟩, by linarith, hjl⟩
  obtain ⟨m, m1, m2⟩ : ∃ m, u < m ∧ m < w := ⟨(u + w) / 2, by linarith, by linarith⟩
  have no := G.mid hi hj hij (le_max_left _ _ : _ ≤ u) (le_max_right _ _ : _ ≤ u) (min_le_left _ _ : w ≤ _)
    (min_le_right _ _ : w ≤ _)
  have U : ∀ t, D.v i ≤ t → t < D.v (D.opp i) → D.v j ≤ t → t < D.v (D.opp j) →
      (under D k c t (k i * t + c i) (k i) j = true ↔ 0 < (k i - k j) * m + (c i - c j)) := by
    intro t z1 z2 z3 z4
    rw [under_iff, ← sign_after no (max_le z1 z3) (lt_min z2 z4) m1 m2, ← hlex]
    exact ⟨fun z => z.2.2.2, fun z => ⟨hj, z3, z4, z⟩⟩
  have VA : t1 < D.v j → (y (D.v j) < k i * D.v j + c i ↔ 0 < (k i - k j) * m + (c i - c j)) := by
    intro z
    have on := G.on j
    have hv := G.vert j i hi (by linarith) (by linarith)
    rw [← sign_after no (max_le (by linarith) le_rfl) (lt_min (by linarith) hjl) m1 m2]
    constructor
    · intro q; left; linarith
    · rintro (q | ⟨q, _⟩)
      · linarith
      · exact absurd (by linarith) hv
  have VB : D.v (D.opp j) ≤ t2 → (y (D.v (D.opp j)) < k i * D.v (D.opp j) + c i ↔
      0 < (k i - k j) * m + (c i - c j)) := by
    intro q
    have on := G.on (D.opp j)
    rw [G.kopp, G.copp] at on
    have hv := G.vert (D.opp j) i hi (by linarith) (by linarith)
    have hwj : w = D.v (D.opp j) := min_eq_right (by linarith)
    rw [← hwj] at on hv ⊢
    rw [← sign_end no (fun e => hv (by linarith)) m1 m2]
    constructor <;> intro <;> linarith
  by_cases s : 0 < (k i - k j) * m + (c i - c j)
  · have e1 : under D k c t1 (k i * t1 + c i) (k i) j = decide (D.v j ≤ t1) := by
      rw [Bool.eq_iff_iff, decide_eq_true_iff]
      constructor
      · intro q; exact (under_iff.mp q).2.1
      · intro q; exact (U t1 h1 (by linarith) q hb).mpr s
    have e2 : under D k c t2 (k i * t2 + c i) (k i) j = decide (t2 < D.v (D.opp j)) := by
      rw [Bool.eq_iff_iff, decide_eq_true_iff]
      constructor
      · intro q; exact (under_iff.mp q).2.2.1
      · intro q; exact (U t2 (by linarith) h2 ha q).mpr s
    have e3 : decide (t1 < D.v j ∧ D.v j ≤ t2 ∧ y (D.v j) < k i * D.v j + c i) = decide (t1 < D.v j) := by
      rw [decide_eq_decide]
      exact ⟨fun q => q.1, fun q => ⟨q, ha, (VA q).mpr s⟩⟩
    have e4 : decide (t1 < D.v (D.opp j) ∧ D.v (D.opp j) ≤ t2 ∧ y (D.v (D.opp j)) < k i * D.v (D.opp j) + c i) =
        decide (D.v (D.opp j) ≤ t2) := by
      rw [decide_eq_decide]
      exact ⟨fun q => q.2.1, fun q => ⟨hb, q, (VB q).mpr s⟩⟩
    rw [e1, e2, e3, e4]
    by_cases q1 : D.v j ≤ t1 <;> by_cases q2 : t2 < D.v (D.opp j) <;>
      simp [q1, q2, not_lt.mpr, not_le.mp, not_le.mpr, not_lt.mp]
  · have e1 : under D k c t1 (k i * t1 + c i) (k i) j = false := by
      rw [← Bool.not_eq_true]
      intro q
      exact s ((U t1 h1 (by linarith) (under_iff.mp q).2.1 hb).mp q)
    have e2 : under D k c t2 (k i * t2 + c i) (k i) j = false := by
      rw [← Bool.not_eq_true]
      intro q
      exact s ((U t2 (by linarith) h2 ha (under_iff.mp q).2.2.1).mp q)
    rw [e1, e2, decide_eq_false (fun q => s ((VA q.1).mp q.2.2)), decide_eq_false (fun q => s ((VB q.2.1).mp q.2.2))]

/-- Sums over darts as sums over edges. -/
theorem sum_edges (oo : ∀ d, D.opp (D.opp d) = d) (lo : ∀ d, D.lf (D.opp d) = !D.lf d) (f : δ → Bool) :
    ∑ d, z (f d) = ∑ j, z (D.lf j && (f j ^^ f (D.opp j))) := by
  have e1 : ∀ d, z (f d) = z (D.lf d && f d) + z (!D.lf d && f d) := by
    intro d
    rw [← z_xor]
    cases D.lf d <;> simp
  have e2 : ∑ d, z (!D.lf d && f d) = ∑ d, z (D.lf d && f (D.opp d)) := by
    refine Fintype.sum_equiv (Function.Involutive.toPerm D.opp oo) _ _ fun d => ?_
    show _ = z (D.lf (D.opp d) && f (D.opp (D.opp d)))
    rw [oo, lo]
  rw [Finset.sum_congr rfl fun d _ => e1 d, Finset.sum_add_distrib, e2, ← Finset.sum_add_distrib]
  refine Finset.sum_congr rfl fun d _ => ?_
  rw [← z_xor]
  cases D.lf d <;> simp

/-- The parity below an edge is the same all along it. -/
theorem Geo.dn_const (G : Geo D k c y) {L : δ → Bool} (hL : D.Ev L) {i : δ} (hi : D.lf i = true) {t1 t2 : ℚ}
    (h1 : D.v i ≤ t1) (h12 : t1 ≤ t2) (h2 : t2 < D.v (D.opp i)) : dn D k c L i t1 = dn D k c L i t2 := by
  have hev := hL.even fun w => decide (t1 < w ∧ w ≤ t2 ∧ y w < k i * w + c i)
  rw [sum_edges G.opp_opp G.lf_opp] at hev
  have key : dn D k c L i t1 + dn D k c L i t2 = 0 := by
    rw [← hev]
    unfold dn
    rw [← Finset.sum_add_distrib]
    refine Finset.sum_congr rfl fun j _ => ?_
    rw [← z_xor]
    congr 1
    by_cases hj : D.lf j = true
    · have := G.under_xor hi h1 h12 h2 hj
      rw [hL.opp, hj, Bool.true_and]
      cases L j
      · simp
      · simp only [Bool.true_and]; exact this
    · rw [Bool.not_eq_true] at hj
      unfold under
      rw [hj]
      simp
  have := two_zero (dn D k c L i t2)
  calc dn D k c L i t1 = dn D k c L i t1 + (dn D k c L i t2 + dn D k c L i t2) := by rw [this, add_zero]
    _ = dn D k c L i t2 := by rw [← add_assoc, key, zero_add]

/-- The parity below a vertex. -/
def base (D : Darts δ) (k c : δ → ℚ) (y : ℚ → ℚ) (L : δ → Bool) (w : ℚ) : ZMod 2 :=
  ∑ j, z (L j && (D.lf j && decide (D.v j < w ∧ w < D.v (D.opp j) ∧ k j * w + c j < y w)))

/-- The parity below an edge, at its left end. -/
theorem Geo.dn_left (G : Geo D k c y) {L : δ → Bool} {i : δ} :
    dn D k c L i (D.v i) = base D k c y L (D.v i) +
      ∑ j, z (L j && (D.lf j && decide (D.v j = D.v i ∧ k j < k i))) := by
  unfold dn base
  rw [← Finset.sum_add_distrib]
  refine Finset.sum_congr rfl fun j _ => ?_
  rw [← z_xor]
  congr 1
  by_cases hj : D.lf j = true
  · unfold under
    rw [G.on i, hj]
    have hlt := G.lt j hj
    cases L j
    · rfl
    · simp only [Bool.true_and]
      by_cases h1 : D.v j = D.v i
      · have on := G.on j
        rw [h1] at on
        rw [decide_eq_false (p := D.v j < D.v i ∧ _) (by rintro ⟨q, _⟩; linarith), Bool.false_xor, decide_eq_decide, on]
        constructor
        · rintro ⟨_, _, q | ⟨_, q⟩⟩
          · exact absurd q (lt_irrefl _)
          · exact ⟨h1, q⟩
        · rintro ⟨_, q⟩
          exact ⟨h1.le, by rw [← h1]; exact hlt, Or.inr ⟨rfl, q⟩⟩
      · rw [decide_eq_false (p := D.v j = D.v i ∧ _) (fun q => h1 q.1), Bool.xor_false, decide_eq_decide]
        constructor
        · rintro ⟨q1, q2, q3⟩
          have q1' : D.v j < D.v i := lt_of_le_of_ne q1 h1
          refine ⟨q1', q2, q3.resolve_right fun q => G.vert i j hj q1' q2 q.1⟩
        · rintro ⟨q1, q2, q3⟩
          exact ⟨q1.le, q2, Or.inl q3⟩
  · rw [Bool.not_eq_true] at hj
    unfold under
    rw [hj]
    simp

/-- The parity below an edge, at its right end. -/
theorem Geo.dn_right (G : Geo D k c y) {L : δ → Bool} (hL : D.Ev L) {i : δ} (hi : D.lf i = true) :
    dn D k c L i (D.v i) = base D k c y L (D.v (D.opp i)) +
      ∑ j, z (L j && (!D.lf j && decide (D.v j = D.v (D.opp i) ∧ k i < k j))) := by
  have il := G.lt i hi
  -- an abscissa after all the vertices before the end
  obtain ⟨t, t1, t2, t3⟩ : ∃ t, D.v i ≤ t ∧ t < D.v (D.opp i) ∧ ∀ d, D.v d < D.v (D.opp i) → D.v d ≤ t := by
    have hne : (Finset.univ.filter fun d => D.v d < D.v (D.opp i)).Nonempty := ⟨i, by simp [il]⟩
    refine ⟨(Finset.univ.filter fun d => D.v d < D.v (D.opp i)).sup' hne D.v, ?_, ?_, ?_⟩
    · exact Finset.le_sup' D.v (by simp [il])
    · rw [Finset.sup'_lt_iff]
      intro d hd
      simpa using hd
    · intro d hd
      exact Finset.le_sup' D.v (by simp [hd])
  rw [G.dn_const hL hi le_rfl t1 t2]
  have re : ∑ j, z (L j && (!D.lf j && decide (D.v j = D.v (D.opp i) ∧ k i < k j))) =
      ∑ j, z (L j && (D.lf j && decide (D.v (D.opp j) = D.v (D.opp i) ∧ k i < k j))) := by
    refine Fintype.sum_equiv (Function.Involutive.toPerm D.opp G.opp_opp) _ _ fun d => ?_
    show _ = z (L (D.opp d) && (D.lf (D.opp d) && decide (D.v (D.opp (D.opp d)) = _ ∧ k i < k (D.opp d))))
    rw [hL.opp, G.lf_opp, G.opp_opp, G.kopp]
  rw [re]
  unfold dn base
  rw [← Finset.sum_add_distrib]
  refine Finset.sum_congr rfl fun j _ => ?_
  rw [← z_xor]
  congr 1
  by_cases hj : D.lf j = true
  · have hlt := G.lt j hj
    unfold under
    rw [hj]
    cases L j
    · rfl
    · simp only [Bool.true_and]
      have onr := G.on (D.opp i)
      rw [G.kopp, G.copp] at onr
      have onj := G.on (D.opp j)
      rw [G.kopp, G.copp] at onj
      have hlex : ∀ t, (k j * t + c j < k i * t + c i ∨ k j * t + c j = k i * t + c i ∧ k j < k i) ↔
          (0 < (k i - k j) * t + (c i - c j) ∨ (k i - k j) * t + (c i - c j) = 0 ∧ 0 < k i - k j) := by
        intro t
        constructor
        · rintro (z | ⟨z, z'⟩)
          · left; linarith
          · right; constructor <;> linarith
        · rintro (z | ⟨z, z'⟩)
          · left; linarith
          · right; constructor <;> linarith
      rcases lt_trichotomy (D.v (D.opp j)) (D.v (D.opp i)) with h1 | h1 | h1
      · -- it ends before
        have := t3 (D.opp j) h1
        rw [decide_eq_false (p := D.v j ≤ t ∧ _) (by rintro ⟨_, q, _⟩; linarith),
          decide_eq_false (p := D.v j < D.v (D.opp i) ∧ _) (by rintro ⟨_, q, _⟩; linarith),
          decide_eq_false (p := D.v (D.opp j) = _ ∧ _) (by rintro ⟨q, _⟩; linarith)]
        rfl
      · -- it ends at the same vertex
        rw [decide_eq_false (p := D.v j < D.v (D.opp i) ∧ _) (by rintro ⟨_, q, _⟩; linarith), Bool.false_xor,
          decide_eq_decide]
        rw [h1] at onj
        have hjt : D.v j ≤ t := t3 j (by linarith)
        have e1 : (k i - k j) * t + (c i - c j) = (k j - k i) * (D.v (D.opp i) - t) := by linarith
        have hpos : 0 < D.v (D.opp i) - t := by linarith
        rw [hlex, e1]
        constructor
        · rintro ⟨_, _, q | ⟨q, q'⟩⟩
          · exact ⟨h1, by have := (pos_iff_pos_of_mul_pos q).mpr hpos; linarith⟩
          · exfalso
            rcases mul_eq_zero.mp q with q | q <;> linarith
        · rintro ⟨_, q⟩
          exact ⟨hjt, by linarith, Or.inl (mul_pos (by linarith) hpos)⟩
      · -- it goes on
        rw [decide_eq_false (p := D.v (D.opp j) = _ ∧ _) (by rintro ⟨q, _⟩; linarith), Bool.xor_false, decide_eq_decide,
          hlex]
        have hji : j ≠ i := by rintro rfl; exact absurd h1 (lt_irrefl _)
        have hsp : D.v j ≤ t ↔ D.v j < D.v (D.opp i) := ⟨fun q => by linarith, fun q => t3 j q⟩
        rw [hsp]
        constructor
        · rintro ⟨q1, _, q3⟩
          refine ⟨q1, h1, ?_⟩
          have no := G.mid (u := max (D.v i) (D.v j)) (w := D.v (D.opp i)) hi hj hji (le_max_left _ _) (le_max_right _ _)
            le_rfl h1.le
          have hv := G.vert (D.opp i) j hj q1 h1
          have tt : max (D.v i) (D.v j) ≤ t := max_le t1 (hsp.mpr q1)
          have k1 := (sign_after no tt t2 (m := (t + D.v (D.opp i)) / 2) (by linarith) (by linarith)).mp q3
          have k2 := (sign_end no (fun e => hv (by linarith)) (m := (t + D.v (D.opp i)) / 2)
            (by linarith) (by linarith)).mpr k1
          linarith
        · rintro ⟨q1, _, q3⟩
          refine ⟨q1, by linarith, ?_⟩
          have no := G.mid (u := max (D.v i) (D.v j)) (w := D.v (D.opp i)) hi hj hji (le_max_left _ _) (le_max_right _ _)
            le_rfl h1.le
          have hv := G.vert (D.opp i) j hj q1 h1
          have tt : max (D.v i) (D.v j) ≤ t := max_le t1 (hsp.mpr q1)
          refine (sign_after no tt t2 (m := (t + D.v (D.opp i)) / 2) (by linarith) (by linarith)).mpr ?_
          refine (sign_end no (fun e => hv (by linarith)) (by linarith) (by linarith)).mp ?_
          linarith
  · rw [Bool.not_eq_true] at hj
    unfold under
    rw [hj]
    simp

theorem Geo.side_opp (G : Geo D k c y) (L : δ → Bool) (hL : D.Ev L) (d : δ) :
    sideOf D k c L (D.opp d) = (sideOf D k c L d ^^ L d) := by
  unfold sideOf
  rw [G.lf_opp, G.opp_opp]
  cases hd : D.lf d
  · simp [hL.opp]
  · simp

theorem sideOf_xor (L L' : δ → Bool) (d : δ) :
    sideOf D k c (fun x => L x ^^ L' x) d = (sideOf D k c L d ^^ sideOf D k c L' d) := by
  have e : ∀ i t, dn D k c (fun x => L x ^^ L' x) i t = dn D k c L i t + dn D k c L' i t := by
    intro i t
    unfold dn
    rw [← Finset.sum_add_distrib]
    refine Finset.sum_congr rfl fun j _ => ?_
    rw [← z_xor]
    congr 1
    beta_reduce
    generalize under D k c t (k i * t + c i) (k i) j = u
    cases L j <;> cases L' j <;> cases u <;> rfl
  unfold sideOf
  rw [e, e, bit_add, bit_add]
  split
  · generalize bit (dn D k c L d (D.v d)) = a
    generalize bit (dn D k c L' d (D.v d)) = b
    beta_reduce
    cases a <;> cases b <;> cases L d <;> cases L' d <;> rfl
  · rfl

/-- The topmost one of a set of edges which pass below something. -/
theorem Geo.top (G : Geo D k c y) {t : ℚ} {B : δ → Bool}
    (hB : ∀ j, B j = true → D.lf j = true ∧ D.v j ≤ t ∧ t < D.v (D.opp j))
    (hdown : ∀ b j, B b = true → under D k c t (k b * t + c b) (k b) j = true → B j = true) :
    (∀ j, B j = false) ∨ ∃ b, B b = true ∧ ∀ L, D.Ev L → ∑ j, z (L j && B j) = z (sideOf D k c L b) := by
  by_cases hne : ∃ j, B j = true
  · right
    have hs : (Finset.univ.filter fun j => B j = true).Nonempty := by
      obtain ⟨j, hj⟩ := hne
      exact ⟨j, by simp [hj]⟩
    obtain ⟨b, hb, hmax⟩ := Finset.exists_max_image (Finset.univ.filter fun j => B j = true)
      (fun j => toLex (k j * t + c j, k j)) hs
    have hb' : B b = true := by simpa using hb
    obtain ⟨b1, b2, b3⟩ := hB b hb'
    refine ⟨b, hb', fun L hL => ?_⟩
    have e : ∀ j, B j = (under D k c t (k b * t + c b) (k b) j ^^ decide (j = b)) := by
      intro j
      by_cases hjb : j = b
      · subst hjb
        have : under D k c t (k j * t + c j) (k j) j = false := by
          rw [← Bool.not_eq_true, under_iff]
          rintro ⟨_, _, _, z | ⟨_, z⟩⟩ <;> exact absurd z (lt_irrefl _)
        rw [hb', this]; simp
      · rw [decide_eq_false hjb, Bool.xor_false, Bool.eq_iff_iff]
        refine ⟨fun hj => ?_, hdown b j hb'⟩
        obtain ⟨j1, j2, j3⟩ := hB j hj
        rw [under_iff]
        refine ⟨j1, j2, j3, ?_⟩
        have := hmax j (by simp [hj])
        rw [Prod.Lex.toLex_le_toLex] at this
        rcases this with q | ⟨q1, q2⟩
        · exact Or.inl q
        · refine Or.inr ⟨q1, lt_of_le_of_ne q2 fun q3 => ?_⟩
          have q3' : k j = k b := q3
          have q1' : k j * t + c j = k b * t + c b := q1
          refine G.cross j b j1 b1 hjb ((t + min (D.v (D.opp j)) (D.v (D.opp b))) / 2) ?_ ?_ ?_ ?_ ?_
          · have : t < min (D.v (D.opp j)) (D.v (D.opp b)) := lt_min j3 b3
            linarith
          · have : min (D.v (D.opp j)) (D.v (D.opp b)) ≤ D.v (D.opp j) := min_le_left _ _
            linarith
          · have : t < min (D.v (D.opp j)) (D.v (D.opp b)) := lt_min j3 b3
            linarith
          · have : min (D.v (D.opp j)) (D.v (D.opp b)) ≤ D.v (D.opp b) := min_le_right _ _
            linarith
          · rw [q3'] at q1' ⊢
            linarith
    have e2 : ∑ j, z (L j && B j) = dn D k c L b t + z (L b) := by
      unfold dn
      have : ∀ j, z (L j && B j) = z (L j && under D k c t (k b * t + c b) (k b) j) + (if j = b then z (L j) else 0) := by
        intro j
        rw [e j]
        by_cases hjb : j = b
        · rw [if_pos hjb, decide_eq_true hjb, ← z_xor]
          congr 1
          cases L j <;> cases under D k c t (k b * t + c b) (k b) j <;> rfl
        · rw [if_neg hjb, decide_eq_false hjb]
          simp
      rw [Finset.sum_congr rfl fun j _ => this j, Finset.sum_add_distrib, Finset.sum_ite_eq' Finset.univ b]
      simp
    rw [e2, ← G.dn_const hL b1 le_rfl b2 b3]
    unfold sideOf
    rw [if_pos b1, z_xor, z_bit]
  · left
    intro j
    rw [← Bool.not_eq_true]
    exact fun h => hne ⟨j, h⟩

theorem Geo.down (G : Geo D k c y) (d : δ) (hd : D.lf d = true) :
    (∀ L, D.Ev L → sideOf D k c L (D.opp d) = false) ∨ ∃ b, D.lf b = true ∧ D.rank b < D.rank d ∧
      ∀ L, D.Ev L → sideOf D k c L (D.opp d) = sideOf D k c L b := by
  have hs : ∀ L, sideOf D k c L (D.opp d) = bit (dn D k c L d (D.v d)) := by
    intro L
    unfold sideOf
    rw [G.lf_opp, hd, G.opp_opp]
    simp
  rcases G.top (t := D.v d) (B := under D k c (D.v d) (k d * D.v d + c d) (k d))
    (fun j hj => ⟨(under_iff.mp hj).1, (under_iff.mp hj).2.1, (under_iff.mp hj).2.2.1⟩) (fun b j hb hj => by
      rw [under_iff] at hb hj ⊢
      refine ⟨hj.1, hj.2.1, hj.2.2.1, ?_⟩
      rcases hb.2.2.2 with q | ⟨q, q'⟩ <;> rcases hj.2.2.2 with r | ⟨r, r'⟩
      · left; linarith
      · left; linarith
      · left; linarith
      · right; exact ⟨by linarith, by linarith⟩) with h | ⟨b, b1, b2⟩
  · left
    intro L _
    rw [hs]
    have : dn D k c L d (D.v d) = 0 := by
      unfold dn
      refine Finset.sum_eq_zero fun j _ => ?_
      rw [h j]; simp
    rw [this]
    decide
  · right
    obtain ⟨c1, c2, c3, c4⟩ := under_iff.mp b1
    refine ⟨b, c1, G.rank b d c1 hd ?_, fun L hL => ?_⟩
    · rcases eq_or_lt_of_le c2 with e | e
      · right
        have o1 := G.on b
        have o2 := G.on d
        rw [e] at o1
        rcases c4 with q | q
        · linarith
        · exact ⟨e, q.2⟩
      · exact Or.inl e
    · rw [hs]
      have := b2 L hL
      unfold dn
      rw [this, bit_z]

end Rene.Face
