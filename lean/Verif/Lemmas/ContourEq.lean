import Verif.Model.ContourOps
import Verif.Lemmas.Geometry
import Mathlib.Data.List.Rotate

/-! Equality, hashing and orientation of contours. -/

namespace Rene
open Spec

theorem areRot_iff_aux {a : Point} {A B l : List Point} (ha : a ∉ A) :
    areRotationallyEquivalent (a :: l) (A ++ a :: B) = true ↔ l = B ++ A ∨ l = A.reverse ++ B.reverse := by
  have hidx : (A ++ a :: B).idxOf a = A.length := by
    rw [List.idxOf_append_of_notMem ha]; simp
  have hmem : a ∈ A ++ a :: B := by simp
  unfold areRotationallyEquivalent
  simp only [hidx]
  by_cases hlen : (a :: l).length = (A ++ a :: B).length
  · rw [if_neg (by simpa using hlen), if_neg (by simpa using hmem)]
    have hl : l.length = A.length + B.length := by simp at hlen; omega
    have e1 : (a :: l).length - A.length = B.length + 1 := by simp; omega
    have e2 : (A ++ a :: B).drop (A.length + 1) = B := by
      rw [List.drop_append]; simp
    have e3 : (A ++ a :: B).take A.length = A := by simp
    rw [e1, e2, e3]
    simp only [List.take_succ_cons, List.drop_succ_cons, List.drop_zero, Bool.or_eq_true, Bool.and_eq_true,
      decide_eq_true_eq]
    constructor
    · rintro (⟨h1, h2⟩ | ⟨h1, h2⟩)
      · left; rw [← h1, ← h2, List.take_append_drop]
      · right; rw [← h1, ← h2, List.take_append_drop]
    · rintro (rfl | rfl)
      · left; simp
      · right
        constructor
        · rw [List.take_append]; simp
        · rw [List.drop_append]; simp
  · rw [if_pos (by simpa using hlen)]
    simp only [Bool.false_eq_true, false_iff]
    rintro (rfl | rfl) <;> simp at hlen <;> omega

theorem split_at {a : Point} {r : List Point} (h : a ∈ r) : ∃ A B, r = A ++ a :: B ∧ a ∉ A := by
  induction r with
  | nil => simp at h
  | cons b r ih =>
    by_cases hab : a = b
    · exact ⟨[], r, by simp [hab], by simp⟩
    · have ha : a ∈ r := by
        rcases List.mem_cons.mp h with h | h
        · exact absurd h hab
        · exact h
      obtain ⟨A', B', e', hn⟩ := ih ha
      exact ⟨b :: A', B', by simp [e'], by simp [hab, hn]⟩

theorem rotated_cons_eq {a : Point} {x y : List Point} (hn : (a :: y).Nodup) (h : (a :: x) ~r (a :: y)) :
    x = y := by
  obtain ⟨k, hk⟩ := h.symm
  have hlt : k % (a :: y).length < (a :: y).length := Nat.mod_lt _ (by simp)
  rw [← List.rotate_mod] at hk
  generalize k % (a :: y).length = j at hk hlt
  rw [List.rotate_eq_drop_append_take hlt.le] at hk
  cases j with
  | zero => simpa using hk.symm
  | succ j =>
    exfalso
    have hj : j < y.length := by simpa using hlt
    rw [List.drop_succ_cons, List.drop_eq_getElem_cons hj] at hk
    simp only [List.cons_append, List.cons.injEq] at hk
    exact (List.nodup_cons.mp hn).1 (hk.1 ▸ List.getElem_mem hj)

theorem rot_swap (a : Point) (A B : List Point) : (A ++ a :: B) ~r (a :: (B ++ A)) := by
  refine ⟨A.length, ?_⟩
  rw [List.rotate_append_length_eq]; simp

/-- Equality of vertex sequences up to rotation and direction. -/
theorem areRot_iff {l r : List Point} (hl : l ≠ []) (hr : r.Nodup) :
    areRotationallyEquivalent l r = true ↔ l ~r r ∨ l ~r r.reverse := by
  obtain ⟨a, l, rfl⟩ := List.exists_cons_of_ne_nil hl
  by_cases ha : a ∈ r
  · obtain ⟨A, B, rfl, hA⟩ := split_at ha
    rw [areRot_iff_aux hA]
    have n1 : (a :: (B ++ A)).Nodup := (rot_swap a A B).nodup_iff.mp hr
    have e2 : (A ++ a :: B).reverse = B.reverse ++ a :: A.reverse := by simp
    have n2 : (a :: (A.reverse ++ B.reverse)).Nodup := by
      rw [← (rot_swap a B.reverse A.reverse).nodup_iff, ← e2, List.nodup_reverse]; exact hr
    rw [e2]
    constructor
    · rintro (rfl | rfl)
      · exact Or.inl (rot_swap a A B).symm
      · exact Or.inr (rot_swap a _ _).symm
    · rintro (h | h)
      · exact Or.inl (rotated_cons_eq n1 (h.trans (rot_swap a A B)))
      · exact Or.inr (rotated_cons_eq n2 (h.trans (rot_swap a _ _)))
  · constructor
    · intro h
      unfold areRotationallyEquivalent at h
      simp [ha] at h
    · rintro (h | h)
      · exact absurd (h.mem_iff.mp List.mem_cons_self) ha
      · exact absurd (List.mem_reverse.mp (h.mem_iff.mp List.mem_cons_self)) ha

/-! ### the least vertex -/

theorem toArgMin_lt {l : List Point} (h : l ≠ []) : toArgMin l < l.length := by
  match l, h with
  | [_], _ => simp [toArgMin]
  | a :: b :: rest, _ =>
    have := toArgMin_lt (l := b :: rest) (by simp)
    simp only [toArgMin]
    split_ifs <;> simp at * <;> omega

theorem toArgMin_min {l : List Point} : ∀ (h : l ≠ []), ∀ p ∈ l, l[toArgMin l]'(toArgMin_lt h) ≤ p := by
  match l with
  | [] => intro h; exact absurd rfl h
  | [a] => intro _ p hp; simp [toArgMin] at *; exact hp ▸ le_refl _
  | a :: b :: rest =>
    intro h p hp
    have hlt := toArgMin_lt (l := b :: rest) (by simp)
    have ih := toArgMin_min (l := b :: rest) (by simp)
    have hd : (b :: rest).getD (toArgMin (b :: rest)) a = (b :: rest)[toArgMin (b :: rest)] :=
      (List.getElem_eq_getD (h := hlt) a).symm
    by_cases hc : ((b :: rest).getD (toArgMin (b :: rest)) a).ltB a = true
    · have e : toArgMin (a :: b :: rest) = toArgMin (b :: rest) + 1 := by
        rw [toArgMin, if_pos hc]
      simp only [e, List.getElem_cons_succ]
      rcases List.mem_cons.mp hp with rfl | hp
      · rw [Point.ltB_iff, hd] at hc; exact hc.le
      · exact ih p hp
    · have e : toArgMin (a :: b :: rest) = 0 := by
        rw [toArgMin, if_neg hc]
      simp only [e, List.getElem_cons_zero]
      rw [Point.ltB_iff, hd, not_lt] at hc
      rcases List.mem_cons.mp hp with rfl | hp
      · exact le_refl _
      · exact hc.trans (ih p hp)

/-- A non-empty vertex list split at its least vertex. -/
theorem split_min {l : List Point} (h : l ≠ []) : ∃ A m B, l = A ++ m :: B ∧ toArgMin l = A.length ∧
    ∀ p ∈ l, m ≤ p := by
  have hlt := toArgMin_lt h
  refine ⟨l.take (toArgMin l), l[toArgMin l], l.drop (toArgMin l + 1), ?_, ?_, toArgMin_min h⟩
  · rw [← List.drop_eq_getElem_cons hlt, List.take_append_drop]
  · rw [List.length_take]; omega

/-- Turn at vertex `m` of the cyclic sequence `m :: C`. -/
def turnAt (m : Point) (C : List Point) : Orientation := orient (C.getLastD m) m (C.headD m)

theorem toContourOrientation_split {A B : List Point} {m : Point} (hC : B ++ A ≠ []) :
    toContourOrientation (A ++ m :: B) A.length = turnAt m (B ++ A) := by
  unfold toContourOrientation turnAt
  simp only
  have hm : (A ++ m :: B).getD A.length ⟨0, 0⟩ = m := by simp
  rw [hm]
  congr 1
  · rcases List.eq_nil_or_concat' A with rfl | ⟨A', z, rfl⟩
    · rcases List.eq_nil_or_concat' B with rfl | ⟨B', z, rfl⟩
      · simp at hC
      · have : (([] : List Point).length + ([] ++ m :: (B' ++ [z])).length - 1) % ([] ++ m :: (B' ++ [z])).length
            = B'.length + 1 := by
          simp only [List.length_nil, List.nil_append, List.length_cons, List.length_append, Nat.zero_add]
          rw [Nat.mod_eq_of_lt] <;> omega
        rw [this]
        simp
    · have : ((A' ++ [z]).length + (A' ++ [z] ++ m :: B).length - 1) % (A' ++ [z] ++ m :: B).length
          = A'.length := by
        simp only [List.length_append, List.length_cons, List.length_nil]
        rw [show A'.length + (0 + 1) + (A'.length + (0 + 1) + (B.length + 1)) - 1
          = A'.length + (A'.length + (0 + 1) + (B.length + 1)) by omega, Nat.add_mod_right,
          Nat.mod_eq_of_lt (by omega)]
      rw [this]
      simp
  · rcases B with _ | ⟨b, B⟩
    · rcases A with _ | ⟨a, A⟩
      · simp at hC
      · simp
    · have : (A.length + 1) % (A ++ m :: b :: B).length = A.length + 1 := by
        rw [Nat.mod_eq_of_lt]; simp
      rw [this]
      simp

theorem turnAt_reverse {m : Point} {C : List Point} :
    turnAt m C.reverse = orient (C.headD m) m (C.getLastD m) := by
  unfold turnAt
  congr 1
  · cases C <;> simp
  · rcases List.eq_nil_or_concat' C with rfl | ⟨A', z, rfl⟩ <;> simp

/-- The tuple hashed: the least vertex, then the other vertices in counterclockwise direction. -/
theorem contourHashKey_split {A B : List Point} {m : Point} (hi : toArgMin (A ++ m :: B) = A.length)
    (hC : B ++ A ≠ []) : contourHashKey (A ++ m :: B) =
      m :: (if turnAt m (B ++ A) = .clockwise then (B ++ A).reverse else B ++ A) := by
  unfold contourHashKey
  simp only [hi, toContourOrientation_split hC]
  have e2 : (A ++ m :: B).drop (A.length + 1) = B := by
    rw [List.drop_append]; simp
  split_ifs
  · rw [e2]; simp
  · simp

theorem orient_swap13 (a b c : Point) : (orient c b a = .clockwise ↔ orient a b c = .counterclockwise) ∧
    (orient c b a = .counterclockwise ↔ orient a b c = .clockwise) ∧
    (orient c b a = .collinear ↔ orient a b c = .collinear) := by
  have : cr c b a = - cr a b c := by unfold cr; ring
  rw [orient_ccw, orient_ccw, orient_cw, orient_cw, orient_collinear, orient_collinear, this]
  refine ⟨neg_lt_zero, neg_pos, neg_eq_zero⟩

end Rene

namespace Rene
open Spec

theorem noCollinearTriples_mid : ∀ (X : List Point) {a b c : Point} {Y : List Point},
    noCollinearTriples (X ++ a :: b :: c :: Y) = true → orient a b c ≠ .collinear
  | [], _, _, _, _, h => by
    simp only [List.nil_append, noCollinearTriples, Bool.and_eq_true, decide_eq_true_eq] at h
    exact h.1
  | [x], a, b, c, Y, h => by
    rw [List.cons_append, List.nil_append, noCollinearTriples, Bool.and_eq_true] at h
    exact noCollinearTriples_mid [] h.2
  | x :: y :: [], a, b, c, Y, h => by
    rw [List.cons_append, List.cons_append, List.nil_append, noCollinearTriples, Bool.and_eq_true] at h
    exact noCollinearTriples_mid [y] h.2
  | x :: y :: z :: X, a, b, c, Y, h => by
    rw [List.cons_append, List.cons_append, List.cons_append, noCollinearTriples, Bool.and_eq_true] at h
    exact noCollinearTriples_mid (y :: z :: X) h.2

theorem getLastD_concat' (X : List Point) (z m : Point) : (X ++ [z]).getLastD m = z := by simp

theorem orient_rot_collinear (a b c : Point) : orient b c a = .collinear ↔ orient a b c = .collinear := by
  rw [orient_collinear, orient_collinear, cr_rot]

/-- Every cyclic turn of a non-degenerate vertex list is a proper turn. -/
theorem turnAt_ne_collinear {A B : List Point} {m : Point} (hl : 3 ≤ (A ++ m :: B).length)
    (h : areContourVerticesNonDegenerate (A ++ m :: B) = true) : turnAt m (B ++ A) ≠ .collinear := by
  unfold areContourVerticesNonDegenerate at h
  simp only [Bool.and_eq_true, Bool.or_eq_true, decide_eq_true_eq] at h
  obtain ⟨h1, h2⟩ := h
  unfold turnAt
  rcases List.eq_nil_or_concat' A with rfl | ⟨A', z, rfl⟩
  · rcases B with _ | ⟨b, B⟩
    · simp at hl
    · rcases List.eq_nil_or_concat' B with rfl | ⟨B', w, rfl⟩
      · simp at hl
      · simp only [List.nil_append, List.append_nil, List.headD_cons]
        have e : (b :: (B' ++ [w])).getLastD m = w := getLastD_concat' (b :: B') w m
        rw [e]
        rcases h2 with h2 | ⟨_, h2⟩
        · have hB : B' = [] := by
            apply List.length_eq_zero_iff.mp
            simp only [List.length_append, List.length_cons, List.length_nil] at h2
            omega
          subst hB
          have := noCollinearTriples_mid [] (a := m) (b := b) (c := w) (Y := []) (by simpa using h1)
          intro hc
          rw [← orient_rot_collinear] at hc
          exact this hc
        · simpa using h2
  · rcases B with _ | ⟨b, B⟩
    · rcases A' with _ | ⟨a, A'⟩
      · simp at hl
      · have e : ([] ++ (a :: A' ++ [z])).getLastD m = z := getLastD_concat' (a :: A') z m
        have e' : ([] ++ (a :: A' ++ [z])).headD m = a := by simp
        rw [e, e']
        rcases h2 with h2 | ⟨h2, _⟩
        · have hA : A' = [] := by
            apply List.length_eq_zero_iff.mp
            simp only [List.length_append, List.length_cons, List.length_nil] at h2
            omega
          subst hA
          have := noCollinearTriples_mid [] (a := a) (b := z) (c := m) (Y := []) (by simpa using h1)
          intro hc
          rw [orient_rot_collinear] at hc
          exact this hc
        · have i1 : (a :: A' ++ [z] ++ [m]).length - 2 = A'.length + 1 := by simp
          have i2 : (a :: A' ++ [z] ++ [m]).length - 1 = A'.length + 1 + 1 := by simp
          rw [i1, i2] at h2
          simpa using h2
    · have e : (b :: B ++ (A' ++ [z])).getLastD m = z := by
        rw [← List.append_assoc]; exact getLastD_concat' _ z m
      rw [e]
      simp only [List.cons_append, List.headD_cons]
      exact noCollinearTriples_mid A' (a := z) (b := m) (c := b) (Y := B) (by simpa using h1)

end Rene
