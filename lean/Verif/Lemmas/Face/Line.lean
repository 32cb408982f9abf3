import Verif.Lemmas.Face.Net

/-! The parity of the edges below a line which does not cross the edges. -/

namespace Rene.Face

variable {δ : Type} [Fintype δ] [DecidableEq δ] {D : Darts δ} {k c : δ → ℚ} {y : ℚ → ℚ}

/-- The number of edges of `L` below the line, just after `t`. -/
def dl (D : Darts δ) (k c : δ → ℚ) (L : δ → Bool) (κ γ t : ℚ) : ZMod 2 :=
  ∑ j, z (L j && under D k c t (κ * t + γ) κ j)

theorem dn_eq_dl (L : δ → Bool) (i : δ) (t : ℚ) : dn D k c L i t = dl D k c L (k i) (c i) t := rfl

/-- The line does not meet the edges between the abscissas, or accompanies them. -/
structure Clear (D : Darts δ) (k c : δ → ℚ) (y : ℚ → ℚ) (κ γ a b : ℚ) : Prop where
  vert : ∀ d, a < D.v d → D.v d < b → κ * D.v d + γ ≠ y (D.v d) ∨ (k d = κ ∧ c d = γ)
  cross : ∀ j, D.lf j = true → (k j = κ ∧ c j = γ) ∨
    ∀ t, a < t → t < b → D.v j < t → t < D.v (D.opp j) → κ * t + γ ≠ k j * t + c j

theorem Clear.under_xor {κ γ a b : ℚ} (H : Clear D k c y κ γ a b) (G : Geo D k c y) {t1 t2 : ℚ} (h1 : a ≤ t1)
    (h12 : t1 ≤ t2) (h2 : t2 < b) {j : δ} (hj : D.lf j = true) :
    (under D k c t1 (κ * t1 + γ) κ j ^^ under D k c t2 (κ * t2 + γ) κ j) =
    (decide (t1 < D.v j ∧ D.v j ≤ t2 ∧ y (D.v j) < κ * D.v j + γ) ^^
      decide (t1 < D.v (D.opp j) ∧ D.v (D.opp j) ≤ t2 ∧ y (D.v (D.opp j)) < κ * D.v (D.opp j) + γ)) := by
  have hjl := G.lt j hj
  have hlex : ∀ t, (k j * t + c j < κ * t + γ ∨ k j * t + c j = κ * t + γ ∧ k j < κ) ↔
      (0 < (κ - k j) * t + (γ - c j) ∨ (κ - k j) * t + (γ - c j) = 0 ∧ 0 < κ - k j) := by
    intro t
    constructor
    · rintro (z | ⟨z, z'⟩)
      · left; linarith
      · right; constructor <;> linarith
    · rintro (z | ⟨z, z'⟩)
      · left; linarith
      · right; constructor <;> linarith
  by_cases hij : k j = κ ∧ c j = γ
  · obtain ⟨rfl, rfl⟩ := hij
    have e1 : under D k c t1 (k j * t1 + c j) (k j) j = false := by
      rw [← Bool.not_eq_true, under_iff]
      rintro ⟨_, _, _, z | ⟨_, z⟩⟩ <;> exact absurd z (lt_irrefl _)
    have e2 : under D k c t2 (k j * t2 + c j) (k j) j = false := by
      rw [← Bool.not_eq_true, under_iff]
      rintro ⟨_, _, _, z | ⟨_, z⟩⟩ <;> exact absurd z (lt_irrefl _)
    have o1 := G.on j
    have o2 := G.on (D.opp j)
    rw [G.kopp, G.copp] at o2
    rw [e1, e2, decide_eq_false (by rintro ⟨_, _, z⟩; linarith), decide_eq_false (by rintro ⟨_, _, z⟩; linarith)]
  have hcr := (H.cross j hj).resolve_left hij
  by_cases hb : D.v (D.opp j) ≤ t1
  · have e1 : under D k c t1 (κ * t1 + γ) κ j = false := by
      rw [← Bool.not_eq_true, under_iff]
      rintro ⟨_, _, z, _⟩; linarith
    have e2 : under D k c t2 (κ * t2 + γ) κ j = false := by
      rw [← Bool.not_eq_true, under_iff]
      rintro ⟨_, _, z, _⟩; linarith
    rw [e1, e2, decide_eq_false (by rintro ⟨z, _⟩; linarith), decide_eq_false (by rintro ⟨z, _⟩; linarith)]
  by_cases ha : t2 < D.v j
  · have e1 : under D k c t1 (κ * t1 + γ) κ j = false := by
      rw [← Bool.not_eq_true, under_iff]
      rintro ⟨_, z, _⟩; linarith
    have e2 : under D k c t2 (κ * t2 + γ) κ j = false := by
      rw [← Bool.not_eq_true, under_iff]
      rintro ⟨_, z, _⟩; linarith
    rw [e1, e2, decide_eq_false (by rintro ⟨_, z, _⟩; linarith), decide_eq_false (by rintro ⟨_, z, _⟩; linarith)]
  rw [not_le] at hb
  rw [not_lt] at ha
  set u := max a (D.v j) with hu
  set w := min b (D.v (D.opp j)) with hw
  have huw : u < w := by
    rw [hu, hw, max_lt_iff, lt_min_iff, lt_min_iff]
    exact ⟨⟨by linarith, by linarith⟩, by linarith, hjl⟩
  obtain ⟨m, m1, m2⟩ : ∃ m, u < m ∧ m < w := ⟨(u + w) / 2, by linarith, by linarith⟩
  have no : ∀ x, u < x → x < w → (κ - k j) * x + (γ - c j) ≠ 0 := by
    intro x x1 x2 e
    rw [hu, max_lt_iff] at x1
    rw [hw, lt_min_iff] at x2
    refine hcr x x1.1 x2.1 x1.2 x2.2 ?_
    linarith
  have U : ∀ t, a ≤ t → t < b → D.v j ≤ t → t < D.v (D.opp j) →
      (under D k c t (κ * t + γ) κ j = true ↔ 0 < (κ - k j) * m + (γ - c j)) := by
    intro t z1 z2 z3 z4
    rw [under_iff, ← sign_after no (max_le z1 z3) (lt_min z2 z4) m1 m2, ← hlex]
    exact ⟨fun z => z.2.2.2, fun z => ⟨hj, z3, z4, z⟩⟩
  have VA : t1 < D.v j → (y (D.v j) < κ * D.v j + γ ↔ 0 < (κ - k j) * m + (γ - c j)) := by
    intro z
    have on := G.on j
    have hv := (H.vert j (by linarith) (by linarith)).resolve_right hij
    rw [← sign_after no (max_le (by linarith) le_rfl) (lt_min (by linarith) hjl) m1 m2]
    constructor
    · intro q; left; linarith
    · rintro (q | ⟨q, _⟩)
      · linarith
      · exact absurd (by linarith) hv
  have VB : D.v (D.opp j) ≤ t2 → (y (D.v (D.opp j)) < κ * D.v (D.opp j) + γ ↔ 0 < (κ - k j) * m + (γ - c j)) := by
    intro q
    have on := G.on (D.opp j)
    rw [G.kopp, G.copp] at on
    have hv := (H.vert (D.opp j) (by linarith) (by linarith)).resolve_right (by rw [G.kopp, G.copp]; exact hij)
    have hwj : w = D.v (D.opp j) := min_eq_right (by linarith)
    rw [← hwj] at on hv ⊢
    rw [← sign_end no (fun e => hv (by linarith)) m1 m2]
    constructor <;> intro <;> linarith
  by_cases s : 0 < (κ - k j) * m + (γ - c j)
  · have e1 : under D k c t1 (κ * t1 + γ) κ j = decide (D.v j ≤ t1) := by
      rw [Bool.eq_iff_iff, decide_eq_true_iff]
      constructor
      · intro q; exact (under_iff.mp q).2.1
      · intro q; exact (U t1 h1 (by linarith) q hb).mpr s
    have e2 : under D k c t2 (κ * t2 + γ) κ j = decide (t2 < D.v (D.opp j)) := by
      rw [Bool.eq_iff_iff, decide_eq_true_iff]
      constructor
      · intro q; exact (under_iff.mp q).2.2.1
      · intro q; exact (U t2 (by linarith) h2 ha q).mpr s
    have e3 : decide (t1 < D.v j ∧ D.v j ≤ t2 ∧ y (D.v j) < κ * D.v j + γ) = decide (t1 < D.v j) := by
      rw [decide_eq_decide]
      exact ⟨fun q => q.1, fun q => ⟨q, ha, (VA q).mpr s⟩⟩
    have e4 : decide (t1 < D.v (D.opp j) ∧ D.v (D.opp j) ≤ t2 ∧ y (D.v (D.opp j)) < κ * D.v (D.opp j) + γ) =
        decide (D.v (D.opp j) ≤ t2) := by
      rw [decide_eq_decide]
      exact ⟨fun q => q.2.1, fun q => ⟨hb, q, (VB q).mpr s⟩⟩
    rw [e1, e2, e3, e4]
    by_cases q1 : D.v j ≤ t1 <;> by_cases q2 : t2 < D.v (D.opp j) <;>
      simp [q1, q2, not_lt.mpr, not_le.mp, not_le.mpr, not_lt.mp]
  · have e1 : under D k c t1 (κ * t1 + γ) κ j = false := by
      rw [← Bool.not_eq_true]
      intro q
      exact s ((U t1 h1 (by linarith) (under_iff.mp q).2.1 hb).mp q)
    have e2 : under D k c t2 (κ * t2 + γ) κ j = false := by
      rw [← Bool.not_eq_true]
      intro q
      exact s ((U t2 (by linarith) h2 ha (under_iff.mp q).2.2.1).mp q)
    rw [e1, e2, decide_eq_false (fun q => s ((VA q.1).mp q.2.2)), decide_eq_false (fun q => s ((VB q.2.1).mp q.2.2))]

/-- The parity below the line is the same all along it. -/
theorem Clear.dl_const {κ γ a b : ℚ} (H : Clear D k c y κ γ a b) (G : Geo D k c y) {L : δ → Bool} (hL : D.Ev L)
    {t1 t2 : ℚ} (h1 : a ≤ t1) (h12 : t1 ≤ t2) (h2 : t2 < b) : dl D k c L κ γ t1 = dl D k c L κ γ t2 := by
  have hev := hL.even fun w => decide (t1 < w ∧ w ≤ t2 ∧ y w < κ * w + γ)
  rw [sum_edges G.opp_opp G.lf_opp] at hev
  have key : dl D k c L κ γ t1 + dl D k c L κ γ t2 = 0 := by
    rw [← hev]
    unfold dl
    rw [← Finset.sum_add_distrib]
    refine Finset.sum_congr rfl fun j _ => ?_
    rw [← z_xor]
    congr 1
    by_cases hj : D.lf j = true
    · have := H.under_xor G h1 h12 h2 hj
      rw [hL.opp, hj, Bool.true_and]
      cases L j
      · simp
      · simp only [Bool.true_and]; exact this
    · rw [Bool.not_eq_true] at hj
      unfold under
      rw [hj]
      simp
  have := two_zero (dl D k c L κ γ t2)
  calc dl D k c L κ γ t1 = dl D k c L κ γ t1 + (dl D k c L κ γ t2 + dl D k c L κ γ t2) := by rw [this, add_zero]
    _ = dl D k c L κ γ t2 := by rw [← add_assoc, key, zero_add]

end Rene.Face
