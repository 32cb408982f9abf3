import Mathlib.Data.Finset.Card
import Mathlib.Algebra.Ring.Parity
import Mathlib.Tactic.Common

/-! The relations between nested contours as computed from the edges just below them. -/

namespace Rene.Face

/-- `S j` are the contours around the contour `j`. -/
structure Forest (m : ℕ) (S : ℕ → Finset ℕ) (internal : ℕ → Bool) (parent : ℕ → Option ℕ) : Prop where
  lt : ∀ j < m, ∀ k ∈ S j, k < j
  cases : ∀ j < m, (S j = ∅ ∧ internal j = false ∧ parent j = none) ∨ ∃ i < j,
    (S j = insert i (S i) ∧ internal i = false ∧ internal j = true ∧ parent j = some i) ∨
    (S j = insert i (S i) ∧ internal i = true ∧ internal j = false ∧ parent j = none) ∨
    (S j = S i ∧ internal i = true ∧ internal j = true ∧ parent j = parent i) ∨
    (S j = S i ∧ internal i = false ∧ internal j = false ∧ parent j = none)

variable {m : ℕ} {S : ℕ → Finset ℕ} {internal : ℕ → Bool} {parent : ℕ → Option ℕ}

theorem Forest.notMem (h : Forest m S internal parent) {j : ℕ} (hj : j < m) : j ∉ S j := fun k =>
  absurd (h.lt j hj j k) (lt_irrefl _)

theorem Forest.card (h : Forest m S internal parent) {j : ℕ} (hj : j < m) :
    (insert j (S j)).card = (S j).card + 1 := Finset.card_insert_of_notMem (h.notMem hj)

theorem Forest.odd (h : Forest m S internal parent) : ∀ j < m, (internal j = true ↔ Odd (S j).card) := by
  intro j
  induction j using Nat.strong_induction_on with
  | _ j ih =>
    intro hj
    rcases h.cases j hj with ⟨h1, h2, _⟩ | ⟨i, hi, k⟩
    · rw [h1, h2]; simp
    · have him : i < m := lt_trans hi hj
      have ihi := ih i hi him
      have hc := h.card him
      rcases k with ⟨k1, k2, k3, _⟩ | ⟨k1, k2, k3, _⟩ | ⟨k1, k2, k3, _⟩ | ⟨k1, k2, k3, _⟩
      · rw [k1, hc, k3, Nat.odd_add_one, ← ihi, k2]; simp
      · rw [k1, hc, k3, Nat.odd_add_one, ← ihi, k2]; simp
      · rw [k1, k3, ← ihi, k2]
      · rw [k1, k3, ← ihi, k2]

theorem Forest.unique (h : Forest m S internal parent) {i j : ℕ} (hi : i < m) (hj : j < m)
    (e : insert i (S i) = insert j (S j)) : i = j := by
  have h1 : i ∈ insert j (S j) := by rw [← e]; simp
  have h2 : j ∈ insert i (S i) := by rw [e]; simp
  rw [Finset.mem_insert] at h1 h2
  rcases h1 with k | k
  · exact k
  · rcases h2 with k' | k'
    · exact k'.symm
    · have := h.lt j hj i k
      have := h.lt i hi j k'
      omega

theorem Forest.up (h : Forest m S internal parent) : ∀ j < m, S j = ∅ ∨ ∃ q < j, S j = insert q (S q) := by
  intro j
  induction j using Nat.strong_induction_on with
  | _ j ih =>
    intro hj
    rcases h.cases j hj with ⟨h1, _⟩ | ⟨i, hi, k⟩
    · exact Or.inl h1
    · rcases k with ⟨k1, _⟩ | ⟨k1, _⟩ | ⟨k1, _⟩ | ⟨k1, _⟩
      · exact Or.inr ⟨i, hi, k1⟩
      · exact Or.inr ⟨i, hi, k1⟩
      · rcases ih i hi (lt_trans hi hj) with z | ⟨q, q1, q2⟩
        · left; rw [k1, z]
        · right; exact ⟨q, lt_trans q1 hi, by rw [k1, q2]⟩
      · rcases ih i hi (lt_trans hi hj) with z | ⟨q, q1, q2⟩
        · left; rw [k1, z]
        · right; exact ⟨q, lt_trans q1 hi, by rw [k1, q2]⟩

/-- The parent of a hole. -/
theorem Forest.hole (h : Forest m S internal parent) : ∀ j < m,
    (internal j = true → ∃ q < j, parent j = some q ∧ S j = insert q (S q) ∧ internal q = false) ∧
    (internal j = false → parent j = none) := by
  intro j
  induction j using Nat.strong_induction_on with
  | _ j ih =>
    intro hj
    rcases h.cases j hj with ⟨h1, h2, h3⟩ | ⟨i, hi, k⟩
    · rw [h2]; simp [h3]
    · rcases k with ⟨k1, k2, k3, k4⟩ | ⟨k1, k2, k3, k4⟩ | ⟨k1, k2, k3, k4⟩ | ⟨k1, k2, k3, k4⟩
      · rw [k3]; simp only [forall_const, Bool.true_eq_false, false_imp_iff, and_true]
        exact ⟨i, hi, k4, k1, k2⟩
      · rw [k3]; simp [k4]
      · rw [k3]; simp only [forall_const, Bool.true_eq_false, false_imp_iff, and_true]
        obtain ⟨q, q1, q2, q3, q4⟩ := (ih i hi (lt_trans hi hj)).1 k2
        exact ⟨q, lt_trans q1 hi, by rw [k4, q2], by rw [k1, q3], q4⟩
      · rw [k3]; simp [k4]

theorem Forest.chain (h : Forest m S internal parent) : ∀ q < m, ∀ k ∈ insert q (S q),
    k = q ∨ ∃ j ∈ insert q (S q), S j = insert k (S k) := by
  intro q
  induction q using Nat.strong_induction_on with
  | _ q ih =>
    intro hq k hk
    rcases Finset.mem_insert.mp hk with rfl | hk
    · exact Or.inl rfl
    · right
      rcases h.up q hq with z | ⟨r, r1, r2⟩
      · rw [z] at hk; simp at hk
      · rw [r2] at hk
        rcases ih r r1 (lt_trans r1 hq) k hk with rfl | ⟨j, j1, j2⟩
        · exact ⟨q, by simp, r2⟩
        · exact ⟨j, by rw [Finset.mem_insert]; right; rw [r2]; exact j1, j2⟩

/-- A point is in a polygon iff it is in an odd number of contours. -/
theorem Forest.region (h : Forest m S internal parent) {T : Finset ℕ}
    (hT : T = ∅ ∨ ∃ i < m, T = S i ∨ T = insert i (S i)) :
    (∃ k < m, internal k = false ∧ k ∈ T ∧ ∀ j < m, parent j = some k → j ∉ T) ↔ Odd T.card := by
  have hT' : T = ∅ ∨ ∃ q < m, T = insert q (S q) := by
    rcases hT with k | ⟨i, hi, rfl | rfl⟩
    · exact Or.inl k
    · rcases h.up i hi with z | ⟨q, q1, q2⟩
      · exact Or.inl z
      · exact Or.inr ⟨q, lt_trans q1 hi, q2⟩
    · exact Or.inr ⟨i, hi, rfl⟩
  rcases hT' with rfl | ⟨q, hq, rfl⟩
  · simp
  · rw [h.card hq, Nat.odd_add_one, ← h.odd q hq, Bool.not_eq_true]
    constructor
    · rintro ⟨k, k1, k2, k3, k4⟩
      rcases h.chain q hq k k3 with rfl | ⟨j, j1, j2⟩
      · exact k2
      · exfalso
        have hjm : j < m := by
          rcases Finset.mem_insert.mp j1 with rfl | z
          · exact hq
          · exact lt_trans (h.lt q hq j z) hq
        have hin : internal j = true := by
          rw [h.odd j hjm, j2, h.card k1, Nat.odd_add_one, ← h.odd k k1, k2]; simp
        obtain ⟨r, r1, r2, r3, _⟩ := (h.hole j hjm).1 hin
        have : k = r := h.unique k1 (lt_trans r1 hjm) (by rw [← j2, r3])
        subst this
        exact k4 j hjm r2 j1
    · intro hi
      refine ⟨q, hq, hi, by simp, fun j hj hp hm => ?_⟩
      have hin : internal j = true := by
        by_contra z
        rw [Bool.not_eq_true] at z
        rw [(h.hole j hj).2 z] at hp
        cases hp
      obtain ⟨r, r1, r2, r3, _⟩ := (h.hole j hj).1 hin
      rw [hp, Option.some.injEq] at r2
      subst r2
      rw [← r3] at hm
      exact h.notMem hj hm

/-- Membership of a point in nested contours. -/
theorem Forest.valid (h : Forest m S internal parent) {T : Finset ℕ}
    (hT : T = ∅ ∨ ∃ i < m, T = S i ∨ T = insert i (S i)) :
    (∀ j < m, ∀ k, parent j = some k → j ∈ T → k ∈ T) ∧
    (∀ i < m, ∀ j < m, ∀ k, parent i = some k → parent j = some k → i ∈ T → j ∈ T → i = j) ∧
    (∀ i < m, ∀ j < m, internal i = false → internal j = false → i ∈ T → j ∈ T →
      (∀ k < m, parent k = some i → k ∉ T) → (∀ k < m, parent k = some j → k ∉ T) → i = j) := by
  have hT' : T = ∅ ∨ ∃ q < m, T = insert q (S q) := by
    rcases hT with k | ⟨i, hi, rfl | rfl⟩
    · exact Or.inl k
    · rcases h.up i hi with z | ⟨q, q1, q2⟩
      · exact Or.inl z
      · exact Or.inr ⟨q, lt_trans q1 hi, q2⟩
    · exact Or.inr ⟨i, hi, rfl⟩
  rcases hT' with rfl | ⟨q, hq, rfl⟩
  · simp
  have lt : ∀ k ∈ insert q (S q), k < m := fun k hk => by
    rcases Finset.mem_insert.mp hk with rfl | z
    · exact hq
    · exact lt_trans (h.lt q hq k z) hq
  have par : ∀ j < m, ∀ k, parent j = some k → k < m ∧ S j = insert k (S k) ∧ internal j = true := by
    intro j hj k hp
    have hin : internal j = true := by
      by_contra z
      rw [Bool.not_eq_true] at z
      rw [(h.hole j hj).2 z] at hp
      cases hp
    obtain ⟨r, r1, r2, r3, _⟩ := (h.hole j hj).1 hin
    rw [hp, Option.some.injEq] at r2
    subst r2
    exact ⟨lt_trans r1 hj, r3, hin⟩
  -- the sets of the members grow
  have nest : ∀ q < m, ∀ j ∈ insert q (S q), S j ⊆ insert q (S q) ∧ (j = q ∨ insert j (S j) ⊆ S q) := by
    intro q
    induction q using Nat.strong_induction_on with
    | _ q ih =>
      intro hq j hj
      rcases Finset.mem_insert.mp hj with rfl | hj
      · exact ⟨Finset.subset_insert _ _, Or.inl rfl⟩
      · rcases h.up q hq with z | ⟨r, r1, r2⟩
        · rw [z] at hj; simp at hj
        · rw [r2] at hj
          obtain ⟨a, b⟩ := ih r r1 (lt_trans r1 hq) j hj
          have sub : insert j (S j) ⊆ S q := by
            rw [r2, Finset.insert_subset_iff]
            exact ⟨hj, a⟩
          exact ⟨(Finset.subset_insert _ _).trans (sub.trans (Finset.subset_insert _ _)), Or.inr sub⟩
  have cmp : ∀ q < m, ∀ i ∈ insert q (S q), ∀ j ∈ insert q (S q), i = j ∨ i ∈ S j ∨ j ∈ S i := by
    intro q
    induction q using Nat.strong_induction_on with
    | _ q ih =>
      intro hq i hi j hj
      rcases Finset.mem_insert.mp hi with rfl | hi <;> rcases Finset.mem_insert.mp hj with rfl | hj
      · exact Or.inl rfl
      · exact Or.inr (Or.inr hj)
      · exact Or.inr (Or.inl hi)
      · rcases h.up q hq with z | ⟨r, r1, r2⟩
        · rw [z] at hj; simp at hj
        · rw [r2] at hi hj
          exact ih r r1 (lt_trans r1 hq) i hi j hj
  refine ⟨?_, ?_, ?_⟩
  · intro j hj k hp hjT
    obtain ⟨p1, p2, _⟩ := par j hj k hp
    exact (nest q hq j hjT).1 (by rw [p2]; simp)
  · intro i hi j hj k pi pj iT jT
    obtain ⟨_, i2, _⟩ := par i hi k pi
    obtain ⟨_, j2, _⟩ := par j hj k pj
    rcases cmp q hq i iT j jT with z | z | z
    · exact z
    · rw [j2, ← i2] at z; exact absurd z (h.notMem hi)
    · rw [i2, ← j2] at z; exact absurd z (h.notMem hj)
  · intro i hi j hj ii ij iT jT ni nj
    have top : ∀ i < m, internal i = false → i ∈ insert q (S q) → (∀ k < m, parent k = some i → k ∉ insert q (S q)) → i = q := by
      intro i hi ii iT ni
      rcases h.chain q hq i iT with rfl | ⟨j, j1, j2⟩
      · rfl
      · exfalso
        have hjm := lt j j1
        have hin : internal j = true := by
          rw [h.odd j hjm, j2, h.card hi, Nat.odd_add_one, ← h.odd i hi, ii]; simp
        obtain ⟨r, r1, r2, r3, _⟩ := (h.hole j hjm).1 hin
        have : i = r := h.unique hi (lt_trans r1 hjm) (by rw [← j2, r3])
        subst this
        exact ni j hjm r2 j1
    rw [top i hi ii iT ni, top j hj ij jT nj]

end Rene.Face
