import Verif.Lemmas.Face.Net

/-! The darts around a vertex. -/

namespace Rene.Face

variable {δ : Type} [Fintype δ] [DecidableEq δ]

/-- The order of the darts around the vertices: clockwise, the ones directed to the left go up, the ones directed to
the right go down. -/
structure Around (D : Darts δ) (k : δ → ℚ) : Prop where
  v : ∀ d, D.v (D.nx d) = D.v d
  ll : ∀ d, D.lf d = false → D.lf (D.nx d) = false →
    (∀ j, D.lf j = false → D.v j = D.v d → (k (D.nx d) < k j ↔ k d < k j ∨ j = d)) ∨
    (∀ j, D.v j = D.v d → D.lf j = false ∧ ¬ k (D.nx d) < k j ∧ (k d < k j ∨ j = d))
  lr : ∀ d, D.lf d = false → D.lf (D.nx d) = true → ∀ j, D.v j = D.v d →
    (D.lf j = false → k d < k j ∨ j = d) ∧ (D.lf j = true → k j < k (D.nx d) ∨ j = D.nx d)
  rr : ∀ d, D.lf d = true → D.lf (D.nx d) = true →
    (∀ j, D.lf j = true → D.v j = D.v d → (k j < k d ↔ k j < k (D.nx d) ∨ j = D.nx d)) ∨
    (∀ j, D.v j = D.v d → D.lf j = true ∧ ¬ k j < k d ∧ (k j < k (D.nx d) ∨ j = D.nx d))
  rl : ∀ d, D.lf d = true → D.lf (D.nx d) = false → ∀ j, D.v j = D.v d →
    (D.lf j = true → ¬ k j < k d) ∧ (D.lf j = false → ¬ k (D.nx d) < k j)

variable {D : Darts δ} {k c : δ → ℚ} {y : ℚ → ℚ}

/-- The parity of the darts of `L` at `w` with a property. -/
def cntAt (D : Darts δ) (L : δ → Bool) (w : ℚ) (q : δ → Bool) : ZMod 2 := ∑ j, z (L j && (decide (D.v j = w) && q j))

theorem cntAt_congr {L : δ → Bool} {w : ℚ} {q q' : δ → Bool} (h : ∀ j, D.v j = w → q j = q' j) :
    cntAt D L w q = cntAt D L w q' := by
  unfold cntAt
  refine Finset.sum_congr rfl fun j _ => ?_
  by_cases hj : D.v j = w
  · rw [h j hj]
  · simp [hj]

theorem cntAt_false {L : δ → Bool} {w : ℚ} {q : δ → Bool} (h : ∀ j, D.v j = w → q j = false) : cntAt D L w q = 0 := by
  rw [cntAt_congr (q' := fun _ => false) h]
  unfold cntAt
  simp

theorem cntAt_xor {L : δ → Bool} {w : ℚ} {q q' : δ → Bool} :
    cntAt D L w (fun j => q j ^^ q' j) = cntAt D L w q + cntAt D L w q' := by
  unfold cntAt
  rw [← Finset.sum_add_distrib]
  refine Finset.sum_congr rfl fun j _ => ?_
  rw [← z_xor]
  congr 1
  cases L j <;> cases decide (D.v j = w) <;> simp

theorem cntAt_one {L : δ → Bool} (d : δ) : cntAt D L (D.v d) (fun j => decide (j = d)) = z (L d) := by
  unfold cntAt
  rw [Finset.sum_eq_single d]
  · simp
  · intro b _ hb
    simp [hb]
  · simp

theorem cntAt_all {L : δ → Bool} (hL : D.Ev L) {w : ℚ} {q : δ → Bool} (h : ∀ j, D.v j = w → q j = true) :
    cntAt D L w q = 0 := by
  rw [cntAt_congr (q' := fun _ => true) h, ← hL.even fun x => decide (x = w)]
  unfold cntAt
  simp

/-- The side of a dart directed to the right, at its start. -/
theorem Geo.side_right (G : Geo D k c y) {L : δ → Bool} {d : δ} (hd : D.lf d = true) :
    z (sideOf D k c L d) = base D k c y L (D.v d) + cntAt D L (D.v d) (fun j => D.lf j && (decide (k j < k d ∨ j = d))) := by
  unfold sideOf
  rw [if_pos hd, z_xor, z_bit, G.dn_left, add_assoc]
  congr 1
  rw [← cntAt_one (D := D) (L := L) d]
  unfold cntAt
  rw [← Finset.sum_add_distrib]
  refine Finset.sum_congr rfl fun j _ => ?_
  rw [← z_xor]
  congr 1
  by_cases e : j = d
  · subst e
    simp [hd]
  · by_cases e' : D.v j = D.v d <;> simp [e, e']

theorem Geo.side_right_opp (G : Geo D k c y) {L : δ → Bool} {d : δ} (hd : D.lf d = true) :
    z (sideOf D k c L (D.opp d)) = base D k c y L (D.v d) + cntAt D L (D.v d) (fun j => D.lf j && (decide (k j < k d))) := by
  unfold sideOf
  rw [if_neg (by rw [G.lf_opp, hd]; simp), G.opp_opp, z_bit, G.dn_left]
  congr 1
  unfold cntAt
  refine Finset.sum_congr rfl fun j _ => ?_
  congr 1
  by_cases e' : D.v j = D.v d <;> simp [e']

theorem Geo.side_left (G : Geo D k c y) {L : δ → Bool} (hL : D.Ev L) {d : δ} (hd : D.lf d = false) :
    z (sideOf D k c L d) = base D k c y L (D.v d) + cntAt D L (D.v d) (fun j => !D.lf j && (decide (k d < k j))) := by
  unfold sideOf
  have h' : D.lf (D.opp d) = true := by rw [G.lf_opp, hd]; rfl
  rw [if_neg (by rw [hd]; simp), z_bit, G.dn_right hL h', G.opp_opp, G.kopp]
  congr 1
  unfold cntAt
  refine Finset.sum_congr rfl fun j _ => ?_
  congr 1
  by_cases e' : D.v j = D.v d <;> simp [e']

theorem Geo.side_left_opp (G : Geo D k c y) {L : δ → Bool} (hL : D.Ev L) {d : δ} (hd : D.lf d = false) :
    z (sideOf D k c L (D.opp d)) =
      base D k c y L (D.v d) + cntAt D L (D.v d) (fun j => !D.lf j && (decide (k d < k j ∨ j = d))) := by
  rw [G.side_opp L hL, z_xor, G.side_left hL hd, add_assoc]
  congr 1
  rw [← cntAt_one (D := D) (L := L) d, ← cntAt_xor]
  refine cntAt_congr fun j hj => ?_
  by_cases e : j = d
  · subst e
    simp [hd]
  · simp [e]

/-- Turning around a vertex stays in one sector. -/
theorem Geo.side_nx (G : Geo D k c y) (A : Around D k) {L : δ → Bool} (hL : D.Ev L) (d : δ) :
    sideOf D k c L (D.nx d) = sideOf D k c L (D.opp d) := by
  apply z_inj
  have hv := A.v d
  cases hd : D.lf d
  · cases he : D.lf (D.nx d)
    · rw [G.side_left hL he, G.side_left_opp hL hd, hv]
      congr 1
      rcases A.ll d hd he with h | h
      · refine cntAt_congr fun j hj => ?_
        cases hl : D.lf j
        · simp only [Bool.not_false, Bool.true_and]
          rw [decide_eq_decide]
          exact h j hl hj
        · rfl
      · rw [cntAt_false (fun j hj => ?_), cntAt_all hL (fun j hj => ?_)]
        · obtain ⟨h1, _, h3⟩ := h j hj
          rw [h1]; simpa using h3
        · obtain ⟨_, h2, _⟩ := h j hj
          rw [decide_eq_false h2]; simp
    · rw [G.side_right he, G.side_left_opp hL hd, hv]
      congr 1
      have h := A.lr d hd he
      have e := cntAt_all hL (w := D.v d) (q := fun j => (D.lf j && decide (k j < k (D.nx d) ∨ j = D.nx d)) ^^
        (!D.lf j && decide (k d < k j ∨ j = d))) (fun j hj => by
          obtain ⟨h1, h2⟩ := h j hj
          cases hl : D.lf j
          · simp [h1 hl]
          · simp [h2 hl])
      rw [cntAt_xor] at e
      generalize cntAt D L (D.v d) (fun j => (D.lf j && decide (k j < k (D.nx d) ∨ j = D.nx d))) = a at *
      generalize cntAt D L (D.v d) (fun j => (!D.lf j && decide (k d < k j ∨ j = d))) = b at *
      revert e
      revert a b
      decide
  · cases he : D.lf (D.nx d)
    · rw [G.side_left hL he, G.side_right_opp hd, hv]
      congr 1
      have h := A.rl d hd he
      rw [cntAt_false (fun j hj => ?_), cntAt_false (fun j hj => ?_)]
      · obtain ⟨h1, _⟩ := h j hj
        cases hl : D.lf j
        · rfl
        · simpa using h1 hl
      · obtain ⟨_, h1⟩ := h j hj
        cases hl : D.lf j
        · simpa using h1 hl
        · rfl
    · rw [G.side_right he, G.side_right_opp hd, hv]
      congr 1
      rcases A.rr d hd he with h | h
      · refine cntAt_congr fun j hj => ?_
        cases hl : D.lf j
        · rfl
        · simp only [Bool.true_and]
          rw [decide_eq_decide]
          exact (h j hl hj).symm
      · rw [cntAt_all hL (fun j hj => ?_), cntAt_false (fun j hj => ?_)]
        · obtain ⟨_, h2, _⟩ := h j hj
          rw [decide_eq_false h2]; simp
        · obtain ⟨h1, _, h3⟩ := h j hj
          rw [h1]; simpa using h3

/-- Straight edges which meet at vertices only make a plane graph. -/
theorem Geo.good (G : Geo D k c y) (A : Around D k) (trans : ∀ d d', D.v d = D.v d' → ∃ m, D.nx^[m] d = d')
    (simple : ∀ d d', D.v d = D.v d' → D.v (D.opp d) = D.v (D.opp d') → d = d') : D.Good (sideOf D k c) where
  opp_opp := G.opp_opp
  ne := by
    intro d e
    cases hd : D.lf d
    · have := G.lt (D.opp d) (by rw [G.lf_opp, hd]; rfl)
      rw [G.opp_opp, e] at this
      exact lt_irrefl _ this
    · have := G.lt d hd
      rw [e] at this
      exact lt_irrefl _ this
  nx_v := A.v
  nx_trans := trans
  simple := simple
  side_opp := G.side_opp
  side_nx := fun L hL d => G.side_nx A hL d
  side_xor := fun L L' _ _ d => sideOf_xor L L' d
  lf_opp := G.lf_opp
  down := G.down

end Rene.Face
