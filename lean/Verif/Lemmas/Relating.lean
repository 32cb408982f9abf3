import Verif.Lemmas.Geometry
import Verif.Model.Relating
import Verif.Spec.Relation
import Mathlib.Tactic.Tauto
import Mathlib.Data.Set.Insert

namespace Rene
open Spec

theorem toSortedPair_cases (a b : Point) (hab : a ≠ b) :
    (a < b ∧ toSortedPair a b = (a, b)) ∨ (b < a ∧ toSortedPair a b = (b, a)) := by
  unfold toSortedPair
  by_cases h : a < b
  · left; exact ⟨h, by simp [Point.ltB_iff.mpr h]⟩
  · right
    refine ⟨lt_of_le_of_ne (not_lt.mp h) hab.symm, ?_⟩
    have : a.ltB b = false := by
      rw [← Bool.not_eq_true, Point.ltB_iff]; exact h
    simp [this]

theorem toSortedPair_comm (a b : Point) : toSortedPair a b = toSortedPair b a := by
  by_cases hab : a = b
  · subst hab; rfl
  · rcases toSortedPair_cases a b hab with ⟨h, e⟩ | ⟨h, e⟩ <;>
      rcases toSortedPair_cases b a (Ne.symm hab) with ⟨h', e'⟩ | ⟨h', e'⟩ <;>
      first
      | exact absurd h (not_lt.mpr h'.le)
      | rw [e, e']

/-- All points of `seg c d` are strictly on one side of the line `ab`. -/
theorem inter_empty_of_same_side {a b c d : Point} (h : 0 < cr a b c * cr a b d) :
    seg a b ∩ seg c d = ∅ := by
  ext p
  simp only [Set.mem_inter_iff, Set.mem_empty_iff_false, iff_false]
  rintro ⟨hp, ⟨t, h0, h1, rfl⟩⟩
  have hz := (mem_seg_iff.mp hp).1
  rw [cr_lerp] at hz
  rcases pos_and_pos_or_neg_and_neg_of_mul_pos h with ⟨h2, h3⟩ | ⟨h2, h3⟩
  · have : 0 < (1 - t) * cr a b c + t * cr a b d := by
      rcases h0.eq_or_lt with rfl | h0
      · simpa using h2
      · have := mul_pos h0 h3
        have := mul_nonneg (sub_nonneg.mpr h1) h2.le
        linarith
    linarith
  · have : (1 - t) * cr a b c + t * cr a b d < 0 := by
      rcases h0.eq_or_lt with rfl | h0
      · simpa using h2
      · have := mul_neg_of_pos_of_neg h0 h3
        have := mul_nonpos_of_nonneg_of_nonpos (sub_nonneg.mpr h1) h2.le
        linarith
    linarith

/-- Common points of segments on different lines coincide. -/
theorem inter_unique {a b c d : Point} (hab : a ≠ b) (hcd : c ≠ d)
    (h : cr a b c ≠ 0 ∨ cr a b d ≠ 0) {p q : Point} (hp : cr a b p = 0) (hp' : cr c d p = 0)
    (hq : cr a b q = 0) (hq' : cr c d q = 0) : p = q := by
  by_contra hpq
  have := cr_of_two hpq hp hq hp' hq' hab hcd
  tauto

theorem inter_atMostOne {a b c d : Point} (hab : a ≠ b) (hcd : c ≠ d)
    (h : cr a b c ≠ 0 ∨ cr a b d ≠ 0) : AtMostOne (seg a b ∩ seg c d) := by
  intro p hp q hq
  exact inter_unique hab hcd h (mem_seg_iff.mp hp.1).1 (mem_seg_iff.mp hp.2).1
    (mem_seg_iff.mp hq.1).1 (mem_seg_iff.mp hq.2).1

/-- Membership in the intersection of two sorted collinear segments. -/
theorem mem_inter_collinear {a b c d : Point} (hab : a < b) (hcd : c < d)
    (hc : cr a b c = 0) (hd : cr a b d = 0) {p : Point} :
    p ∈ seg a b ∩ seg c d ↔ cr a b p = 0 ∧ a ≤ p ∧ p ≤ b ∧ c ≤ p ∧ p ≤ d := by
  rw [Set.mem_inter_iff, mem_seg_iff_of_le hab.le, mem_seg_iff_of_le hcd.le]
  constructor
  · tauto
  · rintro ⟨h, h1⟩
    exact ⟨⟨h, h1.1, h1.2.1⟩, cr_trans hab.ne hc hd h, h1.2.2⟩

theorem seg_subset_of_collinear {a b c d : Point} (hab : a < b) (hcd : c < d)
    (hc : cr a b c = 0) (hd : cr a b d = 0) : seg c d ⊆ seg a b ↔ a ≤ c ∧ d ≤ b := by
  constructor
  · intro h
    have h1 := (mem_seg_iff_of_le hab.le).mp (h (start_mem_seg c d))
    have h2 := (mem_seg_iff_of_le hab.le).mp (h (end_mem_seg c d))
    exact ⟨h1.2.1, h2.2.2⟩
  · rintro ⟨h1, h2⟩
    apply lerp_mem_seg
    · exact (mem_seg_iff_of_le hab.le).mpr ⟨hc, h1, hcd.le.trans h2⟩
    · exact (mem_seg_iff_of_le hab.le).mpr ⟨hd, h1.trans hcd.le, h2⟩

/-- Collinearity is symmetric between two segments. -/
theorem collinear_symm {a b c d : Point} (hab : a ≠ b) (hc : cr a b c = 0) (hd : cr a b d = 0) :
    cr c d a = 0 ∧ cr c d b = 0 :=
  ⟨cr_trans hab hc hd (cr_self1 a b), cr_trans hab hc hd (cr_self2 a b)⟩

/-- Two sorted collinear segments sharing more than one point. -/
theorem not_atMostOne_collinear {a b c d : Point} (hab : a < b) (hcd : c < d)
    (hc : cr a b c = 0) (hd : cr a b d = 0) :
    ¬ AtMostOne (seg a b ∩ seg c d) ↔ a < d ∧ c < b := by
  constructor
  · intro h
    by_contra hn
    apply h
    intro p hp q hq
    rw [mem_inter_collinear hab hcd hc hd] at hp hq
    obtain ⟨_, p1, p2, p3, p4⟩ := hp
    obtain ⟨_, q1, q2, q3, q4⟩ := hq
    by_cases h1 : a < d
    · have h2 : b ≤ c := not_lt.mp fun h2 => hn ⟨h1, h2⟩
      have := le_antisymm p2 (h2.trans p3)
      have := le_antisymm q2 (h2.trans q3)
      simp_all
    · have h1 := not_lt.mp h1
      have := le_antisymm p4 (h1.trans p1)
      have := le_antisymm q4 (h1.trans q1)
      simp_all
  · rintro ⟨h1, h2⟩ h
    have hmax : cr a b (max a c) = 0 := by
      rcases max_choice a c with e | e <;> rw [e]
      · exact cr_self1 _ _
      · exact hc
    have hmin : cr a b (min b d) = 0 := by
      rcases min_choice b d with e | e <;> rw [e]
      · exact cr_self2 _ _
      · exact hd
    have hlt : max a c < min b d := by
      rw [max_lt_iff, lt_min_iff, lt_min_iff]; exact ⟨⟨hab, h1⟩, h2, hcd⟩
    have := h (max a c) ((mem_inter_collinear hab hcd hc hd).mpr
      ⟨hmax, le_max_left _ _, hlt.le.trans (min_le_left _ _), le_max_right _ _,
        hlt.le.trans (min_le_right _ _)⟩)
      (min b d) ((mem_inter_collinear hab hcd hc hd).mpr
      ⟨hmin, (le_max_left _ _).trans hlt.le, min_le_left _ _,
        (le_max_right _ _).trans hlt.le, min_le_right _ _⟩)
    exact hlt.ne this

/-- Opposite strict sides both ways: the segments cross properly. -/
theorem cross_of_opposite {a b c d : Point} (h1 : cr a b c * cr a b d < 0)
    (h2 : cr c d a * cr c d b < 0) :
    ∃ p, seg a b ∩ seg c d = {p} ∧ p ∈ openSeg a b ∧ p ∈ openSeg c d := by
  have key : ∀ a b c d : Point, cr a b c * cr a b d < 0 → ∃ p ∈ openSeg c d, cr a b p = 0 := by
    intro a b c d h
    have hne : cr a b c - cr a b d ≠ 0 := by
      intro e
      have : cr a b c = cr a b d := by linarith
      rw [this] at h
      nlinarith
    refine ⟨lerp c d (cr a b c / (cr a b c - cr a b d)), ⟨_, ?_, ?_, rfl⟩, ?_⟩
    · rcases mul_neg_iff.mp h with ⟨h1, h2⟩ | ⟨h1, h2⟩
      · apply div_pos h1; linarith
      · apply div_pos_of_neg_of_neg h1; linarith
    · rcases mul_neg_iff.mp h with ⟨h1, h2⟩ | ⟨h1, h2⟩
      · rw [div_lt_one (by linarith)]; linarith
      · rw [div_lt_one_of_neg (by linarith)]; linarith
    · rw [cr_lerp]; field_simp; ring
  obtain ⟨p, hp, hp0⟩ := key a b c d h1
  obtain ⟨q, hq, hq0⟩ := key c d a b h2
  have hab : a ≠ b := by rintro rfl; rw [cr_self3, cr_self3] at h1; simp at h1
  have hcd : c ≠ d := by rintro rfl; rw [cr_self3, cr_self3] at h2; simp at h2
  have hc : cr a b c ≠ 0 := by intro e; rw [e] at h1; simp at h1
  have hp' := (mem_openSeg_iff hcd).mp hp
  have hq' := (mem_openSeg_iff hab).mp hq
  have hpq : p = q := inter_unique hab hcd (Or.inl hc) hp0 (mem_seg_iff.mp hp'.1).1
    (mem_seg_iff.mp hq'.1).1 hq0
  subst hpq
  refine ⟨p, ?_, hq, hp⟩
  ext x
  simp only [Set.mem_inter_iff, Set.mem_singleton_iff]
  constructor
  · intro hx
    exact inter_atMostOne hab hcd (Or.inl hc) x hx p ⟨hq'.1, hp'.1⟩
  · rintro rfl; exact ⟨hq'.1, hp'.1⟩

theorem cr_quad (a b c d : Point) : cr a b c - cr a b d = cr c d b - cr c d a := by
  unfold cr; ring

/-- orientation comparisons as sign conditions -/
theorem orient_eq_iff {a b c d e f : Point} : orient a b c = orient d e f ↔
    (cr a b c = 0 ∧ cr d e f = 0) ∨ 0 < cr a b c * cr d e f := by
  rcases lt_trichotomy (cr a b c) 0 with h | h | h <;> rcases lt_trichotomy (cr d e f) 0 with h' | h' | h'
  · rw [orient_cw.mpr h, orient_cw.mpr h']; simp [mul_pos_of_neg_of_neg h h']
  · rw [orient_cw.mpr h, orient_collinear.mpr h']; simp [h', h.ne]
  · rw [orient_cw.mpr h, orient_ccw.mpr h']
    have := mul_neg_of_neg_of_pos h h'
    simp [h.ne, this.le]
  · rw [orient_collinear.mpr h, orient_cw.mpr h']; simp [h, h'.ne]
  · rw [orient_collinear.mpr h, orient_collinear.mpr h']; simp [h, h']
  · rw [orient_collinear.mpr h, orient_ccw.mpr h']; simp [h, h'.ne']
  · rw [orient_ccw.mpr h, orient_cw.mpr h']
    have := mul_neg_of_pos_of_neg h h'
    simp [h.ne', this.le]
  · rw [orient_ccw.mpr h, orient_collinear.mpr h']; simp [h', h.ne']
  · rw [orient_ccw.mpr h, orient_ccw.mpr h']; simp [mul_pos h h']

theorem inter_singleton_of {a b c d p : Point} (hab : a ≠ b) (hcd : c ≠ d)
    (h : cr a b c ≠ 0 ∨ cr a b d ≠ 0) (hp : p ∈ seg a b) (hp' : p ∈ seg c d) :
    seg a b ∩ seg c d = {p} := by
  ext x
  simp only [Set.mem_singleton_iff]
  constructor
  · intro hx; exact inter_atMostOne hab hcd h x hx p ⟨hp, hp'⟩
  · rintro rfl; exact ⟨hp, hp'⟩

theorem inter_empty_of_unique {a b c d p : Point} (hab : a ≠ b) (hcd : c ≠ d)
    (h : cr a b c ≠ 0 ∨ cr a b d ≠ 0) (h1 : cr a b p = 0) (h2 : cr c d p = 0)
    (hp : ¬ (p ∈ seg a b ∧ p ∈ seg c d)) : seg a b ∩ seg c d = ∅ := by
  ext x
  simp only [Set.mem_inter_iff, Set.mem_empty_iff_false, iff_false]
  rintro ⟨hx, hx'⟩
  have : x = p := inter_unique hab hcd h (mem_seg_iff.mp hx).1 (mem_seg_iff.mp hx').1 h1 h2
  subst this
  exact hp ⟨hx, hx'⟩

theorem relateSorted_sound {a b c d : Point} (hab : a < b) (hcd : c < d) :
    SegRel (relateSorted a b c d) a b c d := by
  unfold relateSorted
  simp only [orient_eq_iff, orient_collinear, ne_eq, Point.ltB_iff, Point.leB_iff]
  rw [cr_swap12 a b c, cr_swap12 a b d]
  simp only [neg_eq_zero, neg_mul_neg]
  by_cases h1 : a = c ∧ b = d
  · simp only [h1, and_self, if_true]; exact rfl
  simp only [h1, if_false]
  by_cases hcol : cr a b c = 0 ∧ cr a b d = 0
  · obtain ⟨hc, hd⟩ := hcol
    have hsub1 := seg_subset_of_collinear hab hcd hc hd
    obtain ⟨ha', hb'⟩ := collinear_symm hab.ne hc hd
    have hsub2 := seg_subset_of_collinear hcd hab ha' hb'
    have hmany := not_atMostOne_collinear hab hcd hc hd
    have hmem := fun p => mem_inter_collinear hab hcd hc hd (p := p)
    simp only [hc, hd, mul_zero, lt_irrefl, and_self, or_false, if_true, not_true, if_false]
    split_ifs with h4 h5 h6 h7 h8 h9 h10 h11 h12
    · subst h4; exact ⟨hsub1.mpr ⟨le_refl _, h5.le⟩, fun h => absurd (hsub2.mp h).2 (not_le.mpr h5)⟩
    · subst h4
      have hbd : b < d := lt_of_le_of_ne (not_lt.mp h5) (by tauto)
      exact ⟨hsub2.mpr ⟨le_refl _, hbd.le⟩, fun h => absurd (hsub1.mp h).2 (not_le.mpr hbd)⟩
    · subst h6
      exact ⟨hsub2.mpr ⟨h7.le, le_refl _⟩, fun h => absurd (hsub1.mp h).1 (not_le.mpr h7)⟩
    · subst h6
      have hac : a < c := lt_of_le_of_ne (not_lt.mp h7) h4
      exact ⟨hsub1.mpr ⟨hac.le, le_refl _⟩, fun h => absurd (hsub2.mp h).1 (not_le.mpr hac)⟩
    · rcases h8 with rfl | rfl
      · refine ⟨a, ?_, Or.inl rfl⟩
        ext p; rw [hmem, Set.mem_singleton_iff]
        constructor
        · rintro ⟨_, p1, p2, p3, p4⟩; exact le_antisymm p4 p1
        · rintro rfl; exact ⟨hd, le_refl _, hab.le, hcd.le, le_refl _⟩
      · refine ⟨b, ?_, Or.inr (Or.inl rfl)⟩
        ext p; rw [hmem, Set.mem_singleton_iff]
        constructor
        · rintro ⟨_, p1, p2, p3, p4⟩; exact le_antisymm p2 p3
        · rintro rfl; exact ⟨hc, hab.le, le_refl _, le_refl _, hcd.le⟩
    · exact ⟨hsub1.mpr ⟨h9.1.le, h10.le⟩, fun h => absurd (hsub2.mp h).2 (not_le.mpr h10)⟩
    · have hbd : b < d := lt_of_le_of_ne (not_lt.mp h10) h6
      exact ⟨fun h => absurd (hsub2.mp h).1 (not_le.mpr h9.1),
        fun h => absurd (hsub1.mp h).2 (not_le.mpr hbd), hmany.mpr ⟨h9.1.trans hcd, h9.2⟩⟩
    · exact ⟨hsub2.mpr ⟨h11.1.le, h12.le⟩, fun h => absurd (hsub1.mp h).1 (not_le.mpr h11.1)⟩
    · have hdb : d < b := lt_of_le_of_ne (not_lt.mp h12) (Ne.symm h6)
      exact ⟨fun h => absurd (hsub2.mp h).2 (not_le.mpr hdb),
        fun h => absurd (hsub1.mp h).1 (not_le.mpr h11.1), hmany.mpr ⟨h11.2, h11.1.trans hab⟩⟩
    · show seg a b ∩ seg c d = ∅
      ext p; rw [hmem]
      simp only [Set.mem_empty_iff_false, iff_false]
      rintro ⟨_, p1, p2, p3, p4⟩
      rcases lt_or_gt_of_ne h4 with h | h
      · have : c = b := le_antisymm (p3.trans p2) (not_lt.mp fun h' => h9 ⟨h, h'⟩)
        exact h8 (Or.inr this.symm)
      · have : a = d := le_antisymm (p1.trans p4) (not_lt.mp fun h' => h11 ⟨h, h'⟩)
        exact h8 (Or.inl this)
  · simp only [hcol, false_or]
    have hnc : cr a b c ≠ 0 ∨ cr a b d ≠ 0 := by tauto
    by_cases hs : 0 < cr a b c * cr a b d
    · have hc0 : cr a b c ≠ 0 := by intro e; rw [e] at hs; simp at hs
      simp only [hs, hc0, if_true, not_false_eq_true]
      exact inter_empty_of_same_side hs
    simp only [hs, if_false]
    split_ifs with h1 h2 h3 h4 h5 h6 h7 h8 h9
    · exact ⟨c, inter_singleton_of hab.ne hcd.ne hnc
        ((mem_seg_iff_of_le hab.le).mpr ⟨h1, h2⟩) (start_mem_seg _ _), by tauto⟩
    · apply inter_empty_of_unique hab.ne hcd.ne hnc h1 (cr_self1 c d)
      rintro ⟨h, _⟩
      exact h2 ((mem_seg_iff_of_le hab.le).mp h).2
    · exact ⟨d, inter_singleton_of hab.ne hcd.ne hnc
        ((mem_seg_iff_of_le hab.le).mpr ⟨h3, h4⟩) (end_mem_seg _ _), by tauto⟩
    · apply inter_empty_of_unique hab.ne hcd.ne hnc h3 (cr_self2 c d)
      rintro ⟨h, _⟩
      exact h4 ((mem_seg_iff_of_le hab.le).mp h).2
    · rcases h5 with ⟨h5, h5'⟩ | h5
      · have := collinear_symm hcd.ne h5 h5'
        tauto
      · have := inter_empty_of_same_side h5
        show seg a b ∩ seg c d = ∅
        rw [Set.inter_comm]; exact this
    · refine ⟨a, inter_singleton_of hab.ne hcd.ne hnc (start_mem_seg _ _)
        ((mem_seg_iff_of_le hcd.le).mpr ⟨h6, h7.1.le, h7.2.le⟩), by tauto⟩
    · apply inter_empty_of_unique hab.ne hcd.ne hnc (cr_self1 a b) h6
      rintro ⟨_, h⟩
      have h' := ((mem_seg_iff_of_le hcd.le).mp h).2
      apply h7
      refine ⟨lt_of_le_of_ne h'.1 ?_, lt_of_le_of_ne h'.2 ?_⟩
      · rintro rfl; exact h1 (cr_self1 _ _)
      · rintro rfl; exact h3 (cr_self1 _ _)
    · refine ⟨b, inter_singleton_of hab.ne hcd.ne hnc (end_mem_seg _ _)
        ((mem_seg_iff_of_le hcd.le).mpr ⟨h8, h9.1.le, h9.2.le⟩), by tauto⟩
    · apply inter_empty_of_unique hab.ne hcd.ne hnc (cr_self2 a b) h8
      rintro ⟨_, h⟩
      have h' := ((mem_seg_iff_of_le hcd.le).mp h).2
      apply h9
      refine ⟨lt_of_le_of_ne h'.1 ?_, lt_of_le_of_ne h'.2 ?_⟩
      · rintro rfl; exact h1 (cr_self2 _ _)
      · rintro rfl; exact h3 (cr_self2 _ _)
    · apply cross_of_opposite
      · exact lt_of_le_of_ne (not_lt.mp hs) (mul_ne_zero h1 h3)
      · push Not at h5
        exact lt_of_le_of_ne h5.2 (mul_ne_zero h6 h8)

theorem SegRel_swap_first {r : Relation} {a b c d : Point} :
    SegRel r b a c d ↔ SegRel r a b c d := by
  cases r <;> simp only [SegRel, seg_comm b a, openSeg_comm b a]
  constructor <;> rintro ⟨p, h, h'⟩ <;> exact ⟨p, h, by tauto⟩

theorem SegRel_swap_second {r : Relation} {a b c d : Point} :
    SegRel r a b d c ↔ SegRel r a b c d := by
  cases r <;> simp only [SegRel, seg_comm d c, openSeg_comm d c]
  constructor <;> rintro ⟨p, h, h'⟩ <;> exact ⟨p, h, by tauto⟩

theorem relate_sound {a b c d : Point} (hab : a ≠ b) (hcd : c ≠ d) :
    SegRel (relateToSegmentEndpoints a b c d) a b c d := by
  unfold relateToSegmentEndpoints
  rcases toSortedPair_cases a b hab with ⟨h, e⟩ | ⟨h, e⟩ <;>
    rcases toSortedPair_cases c d hcd with ⟨h', e'⟩ | ⟨h', e'⟩ <;> rw [e, e']
  · exact relateSorted_sound h h'
  · exact SegRel_swap_second.mp (relateSorted_sound h h')
  · exact SegRel_swap_first.mp (relateSorted_sound h h')
  · exact SegRel_swap_first.mp (SegRel_swap_second.mp (relateSorted_sound h h'))

theorem not_atMostOne_seg {a b : Point} (h : a ≠ b) : ¬ AtMostOne (seg a b) := fun h' =>
  h (h' a (start_mem_seg _ _) b (end_mem_seg _ _))

theorem atMostOne_singleton (p : Point) : AtMostOne {p} := by
  intro x hx y hy; rw [Set.mem_singleton_iff] at hx hy; rw [hx, hy]

theorem not_mem_openSeg_left {a b : Point} (h : a ≠ b) : a ∉ openSeg a b := fun h' =>
  ((mem_openSeg_iff h).mp h').2.1 rfl
theorem not_mem_openSeg_right {a b : Point} (h : a ≠ b) : b ∉ openSeg a b := fun h' =>
  ((mem_openSeg_iff h).mp h').2.2 rfl

/-- The meanings of different relations exclude each other. -/
theorem SegRel_unique {r r' : Relation} {a b c d : Point} (hab : a ≠ b) (hcd : c ≠ d)
    (h : SegRel r a b c d) (h' : SegRel r' a b c d) : r = r' := by
  have n1 := not_atMostOne_seg hab
  have n2 := not_atMostOne_seg hcd
  have big : ∀ {r}, SegRel r a b c d → r = .equal ∨ r = .component ∨ r = .composite ∨ r = .overlap →
      ¬ AtMostOne (seg a b ∩ seg c d) := by
    rintro r h (rfl | rfl | rfl | rfl)
    · simp only [SegRel] at h; rw [h, Set.inter_self]; exact n2
    · simp only [SegRel] at h; rw [Set.inter_eq_left.mpr h.1]; exact n1
    · simp only [SegRel] at h; rw [Set.inter_eq_right.mpr h.1]; exact n2
    · exact h.2.2
  have small : ∀ {r}, SegRel r a b c d → r = .cross ∨ r = .touch ∨ r = .disjoint →
      AtMostOne (seg a b ∩ seg c d) := by
    rintro r h (rfl | rfl | rfl)
    · obtain ⟨p, e, _⟩ := h; rw [e]; exact atMostOne_singleton p
    · obtain ⟨p, e, _⟩ := h; rw [e]; exact atMostOne_singleton p
    · simp only [SegRel] at h; rw [h]; intro x hx; simp at hx
  have ct : SegRel .cross a b c d → SegRel .touch a b c d → False := by
    rintro ⟨p, e, h1, h2⟩ ⟨q, e', h3⟩
    rw [e] at e'
    have := Set.singleton_eq_singleton_iff.mp e'
    subst this
    rcases h3 with rfl | rfl | rfl | rfl
    · exact not_mem_openSeg_left hab h1
    · exact not_mem_openSeg_right hab h1
    · exact not_mem_openSeg_left hcd h2
    · exact not_mem_openSeg_right hcd h2
  have ne : ∀ {r}, r = .cross ∨ r = .touch → SegRel r a b c d → SegRel .disjoint a b c d → False := by
    rintro r (rfl | rfl) ⟨p, e, _⟩ h2 <;> simp only [SegRel] at h2 <;>
      exact absurd (e.symm.trans h2) (Set.singleton_ne_empty p)
  have ee : SegRel .equal a b c d → SegRel .component a b c d → False := by
    intro h1 h2; simp only [SegRel] at h1 h2; rw [h1] at h2; exact (ssubset_irrefl _ h2)
  have ec : SegRel .equal a b c d → SegRel .composite a b c d → False := by
    intro h1 h2; simp only [SegRel] at h1 h2; rw [h1] at h2; exact (ssubset_irrefl _ h2)
  have cc : SegRel .component a b c d → SegRel .composite a b c d → False := by
    intro h1 h2; simp only [SegRel] at h1 h2; exact ssubset_irrefl _ (h1.trans h2)
  have eo : SegRel .equal a b c d → SegRel .overlap a b c d → False := by
    intro h1 h2; simp only [SegRel] at h1 h2; exact h2.1 h1.subset
  have co : SegRel .component a b c d → SegRel .overlap a b c d → False := by
    intro h1 h2; simp only [SegRel] at h1 h2; exact h2.1 h1.1
  have co' : SegRel .composite a b c d → SegRel .overlap a b c d → False := by
    intro h1 h2; simp only [SegRel] at h1 h2; exact h2.2.1 h1.1
  cases r <;> cases r' <;> first
    | rfl
    | exact h.elim
    | exact h'.elim
    | exact absurd (small h' (by decide)) (big h (by decide))
    | exact absurd (small h (by decide)) (big h' (by decide))
    | exact (ct h h').elim
    | exact (ct h' h).elim
    | exact (ne (by decide) h h').elim
    | exact (ne (by decide) h' h).elim
    | exact (ee h h').elim
    | exact (ee h' h).elim
    | exact (ec h h').elim
    | exact (ec h' h).elim
    | exact (cc h h').elim
    | exact (cc h' h).elim
    | exact (eo h h').elim
    | exact (eo h' h).elim
    | exact (co h h').elim
    | exact (co h' h).elim
    | exact (co' h h').elim
    | exact (co' h' h).elim

theorem relate_iff {r : Relation} {a b c d : Point} (hab : a ≠ b) (hcd : c ≠ d) :
    relateToSegmentEndpoints a b c d = r ↔ SegRel r a b c d :=
  ⟨fun h => h ▸ relate_sound hab hcd, fun h => SegRel_unique hab hcd (relate_sound hab hcd) h⟩

theorem SegRel_complement {r : Relation} {a b c d : Point} (h : SegRel r a b c d) :
    SegRel r.complement c d a b := by
  cases r <;> simp only [SegRel, Relation.complement] at h ⊢ <;>
    simp only [reduceCtorEq, or_self, or_false, false_or, if_true, if_false, or_true] <;>
    first
    | exact h
    | exact h.symm
    | (rw [Set.inter_comm]; exact h)
    | (obtain ⟨p, e, h⟩ := h; exact ⟨p, by rw [Set.inter_comm]; exact e, by tauto⟩)
    | (refine ⟨h.2.1, h.1, ?_⟩; rw [Set.inter_comm]; exact h.2.2)
    | skip

end Rene
