import Verif.Lemmas.Face.Line
import Mathlib.Data.Finset.Max

/-! The parity of the edges below a line, up to a vertex on it. -/

namespace Rene.Face

variable {δ : Type} [Fintype δ] [DecidableEq δ] {D : Darts δ} {k c : δ → ℚ} {y : ℚ → ℚ}

omit [DecidableEq δ] in
/-- There is an abscissa after all the vertices before another one. -/
theorem exists_before (D : Darts δ) {t b : ℚ} (h : t < b) : ∃ t', t < t' ∧ t' < b ∧ ∀ d, D.v d < b → D.v d < t' := by
  classical
  let F : Finset ℚ := insert t ((Finset.univ.image D.v).filter (fun v => v < b))
  have hF : F.Nonempty := ⟨_, Finset.mem_insert_self _ _⟩
  have hmax : F.max' hF < b := by
    rw [Finset.max'_lt_iff]
    intro v hv
    rcases Finset.mem_insert.mp hv with rfl | hv
    · exact h
    · exact (Finset.mem_filter.mp hv).2
  refine ⟨(F.max' hF + b) / 2, ?_, by linarith, fun d hd => ?_⟩
  · have := F.le_max' _ (Finset.mem_insert_self t _)
    linarith
  · have := F.le_max' (D.v d) (Finset.mem_insert_of_mem (Finset.mem_filter.mpr
      ⟨Finset.mem_image.mpr ⟨d, Finset.mem_univ _, rfl⟩, hd⟩))
    linarith

/-- The parity at the end of a clear part, when nothing starts or ends below there. -/
theorem Clear.dl_last {κ γ a b : ℚ} (H : Clear D k c y κ γ a b) (G : Geo D k c y) {L : δ → Bool} (hL : D.Ev L)
    {t : ℚ} (h1 : a ≤ t) (h2 : t < b)
    (hs : ∀ j, D.lf j = true → D.v j = b → ¬ (k j * b + c j < κ * b + γ ∨ k j * b + c j = κ * b + γ ∧ k j < κ))
    (he : ∀ j, D.lf j = true → D.v (D.opp j) = b → k j = κ ∧ c j = γ)
    (hm : ∀ j, D.lf j = true → D.v j < b → b < D.v (D.opp j) → k j * b + c j ≠ κ * b + γ) :
    dl D k c L κ γ t = dl D k c L κ γ b := by
  obtain ⟨t', t1, t2, t3⟩ := exists_before D h2
  rw [H.dl_const G hL h1 t1.le t2]
  unfold dl
  refine Finset.sum_congr rfl fun j _ => ?_
  congr 2
  rw [Bool.eq_iff_iff, under_iff, under_iff]
  have coll : k j = κ → c j = γ → ∀ x, ¬ (k j * x + c j < κ * x + γ ∨ k j * x + c j = κ * x + γ ∧ k j < κ) := by
    rintro rfl rfl x (q | q)
    · exact lt_irrefl _ q
    · exact lt_irrefl _ q.2
  -- the middle
  have mid : D.lf j = true → D.v j < b → b < D.v (D.opp j) → ((k j * t' + c j < κ * t' + γ ∨ k j * t' + c j = κ * t' + γ ∧ k j < κ) ↔
      (k j * b + c j < κ * b + γ ∨ k j * b + c j = κ * b + γ ∧ k j < κ)) := by
    intro hj k1 k2
    rcases H.cross j hj with ⟨e1, e2⟩ | hc
    · exact iff_of_false (coll e1 e2 t') (coll e1 e2 b)
    · have k3 := t3 j k1
      have n1 := hc t' (by linarith) t2 k3 (by linarith)
      have n2 := hm j hj k1 k2
      have none : ∀ x, t' < x → x < b → κ * x + γ ≠ k j * x + c j := fun x x1 x2 =>
        hc x (by linarith) x2 (by linarith) (by linarith)
      rcases lt_or_gt_of_ne n1 with q1 | q1 <;> rcases lt_or_gt_of_ne n2 with q2 | q2
      · exfalso
        have hd : 0 < κ - k j := by
          have : 0 < (κ - k j) * (b - t') := by linarith
          exact (pos_iff_pos_of_mul_pos this).mpr (by linarith)
        refine none ((c j - γ) / (κ - k j)) ?_ ?_ (by field_simp; ring)
        · rw [lt_div_iff₀ hd]; linarith
        · rw [div_lt_iff₀ hd]; linarith
      · exact iff_of_false (fun q => by rcases q with q | ⟨q, _⟩ <;> linarith) (fun q => by rcases q with q | ⟨q, _⟩ <;> linarith)
      · exact iff_of_true (Or.inl q1) (Or.inl q2)
      · exfalso
        have hd : 0 < k j - κ := by
          have : 0 < (k j - κ) * (b - t') := by linarith
          exact (pos_iff_pos_of_mul_pos this).mpr (by linarith)
        refine none ((γ - c j) / (k j - κ)) ?_ ?_ (by field_simp; ring)
        · rw [lt_div_iff₀ hd]; linarith
        · rw [div_lt_iff₀ hd]; linarith
  constructor
  · rintro ⟨hj, k1, k2, k3⟩
    have k1' : D.v j < b := by linarith
    rcases lt_trichotomy b (D.v (D.opp j)) with q | q | q
    · exact ⟨hj, k1'.le, q, (mid hj k1' q).mp k3⟩
    · obtain ⟨e1, e2⟩ := he j hj q.symm
      exact absurd k3 (coll e1 e2 t')
    · have := t3 _ q
      linarith
  · rintro ⟨hj, k1, k2, k3⟩
    rcases lt_or_eq_of_le k1 with q | q
    · exact ⟨hj, (t3 j q).le, by linarith, (mid hj q k2).mpr k3⟩
    · exact absurd k3 (hs j hj q)

end Rene.Face
