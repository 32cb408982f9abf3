import Verif.Lemmas.Face.Nest
import Verif.Lemmas.Face.Forest
import Mathlib.Data.List.GetD

/-! The contours around a contour, from the sides of its edges. -/

namespace Rene.Face

variable {δ : Type} [Fintype δ] [DecidableEq δ] {D : Darts δ} {side : (δ → Bool) → δ → Bool}

/-- The contours which have the dart inside. -/
def around (D : Darts δ) (side : (δ → Bool) → δ → Bool) (Cs : List (List δ)) (d : δ) : Finset ℕ :=
  (Finset.range Cs.length).filter fun k => side (D.span (Cs.getD k [])) d = true

theorem mem_around {Cs : List (List δ)} {d : δ} {k : ℕ} : k ∈ around D side Cs d ↔
    k < Cs.length ∧ side (D.span (Cs.getD k [])) d = true := by
  unfold around
  rw [Finset.mem_filter, Finset.mem_range]

/-- The contours around the contour `j`. -/
def outer (D : Darts δ) (side : (δ → Bool) → δ → Bool) (Cs : List (List δ)) (j : ℕ) : Finset ℕ :=
  (Finset.range Cs.length).filter fun k => k < j ∧ ∃ x ∈ Cs.getD j [], side (D.span (Cs.getD k [])) x = true

theorem mem_outer {Cs : List (List δ)} {j k : ℕ} : k ∈ outer D side Cs j ↔
    k < Cs.length ∧ k < j ∧ ∃ x ∈ Cs.getD j [], side (D.span (Cs.getD k [])) x = true := by
  unfold outer
  rw [Finset.mem_filter, Finset.mem_range]

theorem getD_mem {Cs : List (List δ)} {j : ℕ} (h : j < Cs.length) : Cs.getD j [] ∈ Cs := by
  rw [List.getD_eq_getElem _ _ h]; exact List.getElem_mem h

/-- The sides of a dart of the contour `j`. -/
theorem Nest.around_eq (n : Nest D side Cs) (hoo : ∀ d, D.opp (D.opp d) = d) {j : ℕ} (hj : j < Cs.length) {x : δ}
    (hx : x ∈ Cs.getD j []) : around D side Cs x = insert j (outer D side Cs j) ∧
      around D side Cs (D.opp x) = outer D side Cs j := by
  have sx : D.span (Cs.getD j []) x = true := D.span_iff.mpr (Or.inl hx)
  have so : D.span (Cs.getD j []) (D.opp x) = true := D.span_iff.mpr (Or.inr (by rw [hoo]; exact hx))
  obtain ⟨i1, i2⟩ := n.inside _ (getD_mem hj) x hx
  have pw := List.pairwise_iff_getElem.mp n.const
  have hk : ∀ k < Cs.length, k ≠ j → ∀ d, D.span (Cs.getD j []) d = true →
      (side (D.span (Cs.getD k [])) d = true ↔ k ∈ outer D side Cs j) := by
    intro k hk hne d hd
    rw [mem_outer]
    rcases lt_or_gt_of_ne hne with q | q
    · have := (pw k j hk hj q).2.1
      rw [← List.getD_eq_getElem _ [] hk, ← List.getD_eq_getElem _ [] hj] at this
      obtain ⟨b, hb⟩ := this
      constructor
      · intro h
        refine ⟨hk, q, x, hx, ?_⟩
        rw [hb x sx, ← hb d hd]; exact h
      · rintro ⟨_, _, x', hx', e⟩
        rw [hb d hd, ← hb x' (D.span_iff.mpr (Or.inl hx'))]; exact e
    · have := (pw j k hj hk q).1
      rw [← List.getD_eq_getElem _ [] hk, ← List.getD_eq_getElem _ [] hj] at this
      rw [this d hd]
      constructor
      · intro h; cases h
      · rintro ⟨_, k', _⟩; omega
  constructor
  · ext k
    rw [mem_around, Finset.mem_insert]
    by_cases e : k = j
    · rw [e]; exact ⟨fun _ => Or.inl rfl, fun _ => ⟨hj, i1⟩⟩
    · constructor
      · rintro ⟨k1, k2⟩
        exact Or.inr ((hk k k1 e x sx).mp k2)
      · rintro (q | q)
        · exact absurd q e
        · have k1 := (mem_outer.mp q).1
          exact ⟨k1, (hk k k1 e x sx).mpr q⟩
  · ext k
    rw [mem_around]
    by_cases e : k = j
    · subst e
      rw [i2, mem_outer]
      constructor
      · rintro ⟨_, q⟩; cases q
      · rintro ⟨_, q, _⟩; omega
    · constructor
      · rintro ⟨k1, k2⟩
        exact (hk k k1 e _ so).mp k2
      · intro q
        have k1 := (mem_outer.mp q).1
        exact ⟨k1, (hk k k1 e _ so).mpr q⟩

/-- The sides of a dart are described by a contour. -/
theorem Nest.around_cases (n : Nest D side Cs) (hoo : ∀ d, D.opp (D.opp d) = d) (hrem : ∀ d, D.rem Cs d = false) (b : δ) :
    ∃ i < Cs.length, around D side Cs b = outer D side Cs i ∨ around D side Cs b = insert i (outer D side Cs i) := by
  have := hrem b
  unfold Darts.rem at this
  rw [List.all_eq_false] at this
  obtain ⟨C, hC, k⟩ := this
  obtain ⟨i, hi, e⟩ := List.mem_iff_getElem.mp hC
  rw [← List.getD_eq_getElem _ [] hi] at e
  have k' : D.span (Cs.getD i []) b = true := by rw [e]; simpa using k
  refine ⟨i, hi, ?_⟩
  rcases D.span_iff.mp k' with q | q
  · exact Or.inr (n.around_eq hoo hi q).1
  · left
    have := (n.around_eq hoo hi q).2
    rwa [hoo] at this

end Rene.Face
