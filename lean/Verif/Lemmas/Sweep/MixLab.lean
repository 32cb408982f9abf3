import Verif.Lemmas.Sweep.MixInit
import Verif.Lemmas.Sweep.ShapeEdges

/-! The values computed by the mixed sweep: parity of the number of edges below. -/

namespace Rene.Sweep
open Rene Spec

/-- Slope of a segment over the sheared abscissa. -/
def sK (ε : ℚ) (s : Segment) : ℚ := ((hi s).y - (lo s).y) / (Xe ε (hi s) - Xe ε (lo s))

/-- Value at zero of the line of a segment. -/
def sC (ε : ℚ) (s : Segment) : ℚ := (lo s).y - sK ε s * Xe ε (lo s)

/-- The line of a segment. -/
def sF (ε : ℚ) (s : Segment) (t : ℚ) : ℚ := sK ε s * t + sC ε s

/-- The segment is present immediately to the right of `τ`. -/
def sSpans (ε : ℚ) (s : Segment) (τ : ℚ) : Prop := Xe ε (lo s) ≤ τ ∧ τ < Xe ε (hi s)

/-- Segment `s` is below `u` immediately to the right of `τ`. -/
def sAbove (ε : ℚ) (s u : Segment) (τ : ℚ) : Prop := sF ε s τ < sF ε u τ ∨ (sF ε s τ = sF ε u τ ∧ sK ε s < sK ε u)

/-- Same line. -/
def sColl (ε : ℚ) (s u : Segment) : Prop := sK ε s = sK ε u ∧ sC ε s = sC ε u

theorem sColl.f_eq {ε : ℚ} {s u : Segment} (h : sColl ε s u) (t : ℚ) : sF ε s t = sF ε u t := by
  unfold sF; rw [h.1, h.2]

theorem sColl.not_above {ε : ℚ} {s u : Segment} (h : sColl ε s u) (t : ℚ) : ¬ sAbove ε s u t := by
  rintro (k | ⟨_, k⟩)
  · rw [h.f_eq] at k; exact lt_irrefl _ k
  · rw [h.1] at k; exact lt_irrefl _ k

open Classical in
/-- The contribution of an edge to the value at `τ` for a segment `u` of the operand `T`. -/
noncomputable def gb (ε : ℚ) (T : Bool) (u : Segment) (τ : ℚ) (s : Segment) : Bool :=
  decide (sSpans ε s τ ∧ (sAbove ε s u τ ∨ (sColl ε s u ∧ T = false)))

theorem gb_iff {ε : ℚ} {T : Bool} {u : Segment} {τ : ℚ} {s : Segment} : gb ε T u τ s = true ↔
    sSpans ε s τ ∧ (sAbove ε s u τ ∨ (sColl ε s u ∧ T = false)) := by
  classical exact decide_eq_true_iff

open Classical in
/-- The segment is present and below `u` immediately to the right of `τ`. -/
noncomputable def gs (ε : ℚ) (u : Segment) (τ : ℚ) (s : Segment) : Bool := decide (sSpans ε s τ ∧ sAbove ε s u τ)

theorem gs_iff {ε : ℚ} {u : Segment} {τ : ℚ} {s : Segment} : gs ε u τ s = true ↔ sSpans ε s τ ∧ sAbove ε s u τ := by
  classical exact decide_eq_true_iff

section
variable {ε : ℚ}

theorem sF_lo (s : Segment) : sF ε s (Xe ε (lo s)) = (lo s).y := by unfold sF sC; ring

theorem sF_hi {s : Segment} (h : Xe ε (lo s) < Xe ε (hi s)) : sF ε s (Xe ε (hi s)) = (hi s).y := by
  unfold sF sC sK
  have : Xe ε (hi s) - Xe ε (lo s) ≠ 0 := by linarith
  field_simp
  ring

theorem cr_sF {s : Segment} (h : Xe ε (lo s) < Xe ε (hi s)) (p : Point) :
    cr (lo s) (hi s) p = (Xe ε (hi s) - Xe ε (lo s)) * (p.y - sF ε s (Xe ε p)) := by
  have hd : Xe ε (hi s) - Xe ε (lo s) ≠ 0 := by linarith
  have e : (Xe ε (hi s) - Xe ε (lo s)) * sF ε s (Xe ε p) =
      ((hi s).y - (lo s).y) * (Xe ε p - Xe ε (lo s)) + (Xe ε (hi s) - Xe ε (lo s)) * (lo s).y := by
    unfold sF sC sK
    field_simp
    ring
  rw [mul_sub, e]
  unfold cr Xe
  ring

theorem below_sF {s : Segment} (h : Xe ε (lo s) < Xe ε (hi s)) (p : Point) : below ε s p = true ↔
    sSpans ε s (Xe ε p) ∧ sF ε s (Xe ε p) < p.y := by
  rw [below_iff, cr_sF h]
  have hd : 0 < Xe ε (hi s) - Xe ε (lo s) := by linarith
  rw [mul_pos_iff_of_pos_left hd, sub_pos, sSpans, and_assoc]

theorem mem_segPts_sF {s : Segment} (h : Xe ε (lo s) < Xe ε (hi s)) (p : Point) : p ∈ segPts s ↔
    p.y = sF ε s (Xe ε p) ∧ Xe ε (lo s) ≤ Xe ε p ∧ Xe ε p ≤ Xe ε (hi s) := by
  rw [segPts_eq]
  constructor
  · intro hp
    have hc : cr (lo s) (hi s) p = 0 := (mem_seg_iff.mp hp).1
    rw [cr_sF h] at hc
    have hd : Xe ε (hi s) - Xe ε (lo s) ≠ 0 := by linarith
    refine ⟨by linarith [(mul_eq_zero.mp hc).resolve_left hd], ?_⟩
    obtain ⟨t, t0, t1, rfl⟩ := hp
    rw [Xe_lerp]
    constructor <;> nlinarith
  · rintro ⟨h1, h2, h3⟩
    exact mem_seg_of_Xe h (by rw [cr_sF h, h1, sub_self, mul_zero]) h2 h3

/-- The point of the line of a segment with a given abscissa. -/
def pt (ε : ℚ) (s : Segment) (t : ℚ) : Point := ⟨t - ε * sF ε s t, sF ε s t⟩

theorem Xe_pt (s : Segment) (t : ℚ) : Xe ε (pt ε s t) = t := by unfold Xe pt; simp only; ring

theorem pt_mem {s : Segment} (h : Xe ε (lo s) < Xe ε (hi s)) {t : ℚ} (h1 : Xe ε (lo s) ≤ t) (h2 : t ≤ Xe ε (hi s)) :
    pt ε s t ∈ segPts s := by
  rw [mem_segPts_sF h, Xe_pt]
  exact ⟨rfl, h1, h2⟩

theorem pt_openSeg {s : Segment} (h : Xe ε (lo s) < Xe ε (hi s)) {t : ℚ} (h1 : Xe ε (lo s) < t) (h2 : t < Xe ε (hi s)) :
    pt ε s t ∈ openSeg s.start s.end := by
  rw [mem_openSeg_iff (ne_of_inc h)]
  refine ⟨pt_mem h h1.le h2.le, ?_⟩
  have k1 : pt ε s t ≠ lo s := fun e => by rw [← e, Xe_pt] at h1; exact lt_irrefl _ h1
  have k2 : pt ε s t ≠ hi s := fun e => by rw [← e, Xe_pt] at h2; exact lt_irrefl _ h2
  rcases lo_hi_or s with ⟨e1, e2⟩ | ⟨e1, e2⟩ <;> rw [e1] at k1 <;> rw [e2] at k2
  · exact ⟨k1, k2⟩
  · exact ⟨k2, k1⟩

/-- Two lines to the right of an abscissa. -/
theorem near_line (s u : Segment) (τ : ℚ) : ∃ d > 0, ∀ t, τ < t → t < τ + d →
    (sF ε s t < sF ε u t ↔ sAbove ε s u τ) ∧ (sF ε s t = sF ε u t → sColl ε s u) := by
  have key : ∀ t, sF ε s t - sF ε u t = (sF ε s τ - sF ε u τ) + (sK ε s - sK ε u) * (t - τ) := by
    intro t; unfold sF; ring
  by_cases hz : sF ε s τ = sF ε u τ
  · refine ⟨1, one_pos, fun t h1 _ => ?_⟩
    have k := key t
    rw [hz, sub_self, zero_add] at k
    have hp : 0 < t - τ := by linarith
    constructor
    · unfold sAbove
      constructor
      · intro h
        right
        refine ⟨hz, ?_⟩
        by_contra hk
        have := mul_nonneg (sub_nonneg.mpr (not_lt.mp hk)) hp.le
        linarith
      · rintro (h | ⟨_, h⟩)
        · rw [hz] at h; exact absurd h (lt_irrefl _)
        · have := mul_neg_of_neg_of_pos (sub_neg.mpr h) hp
          linarith
    · intro h
      rw [h, sub_self] at k
      have hk : sK ε s = sK ε u := by
        rcases mul_eq_zero.mp k.symm with z | z
        · linarith
        · linarith
      refine ⟨hk, ?_⟩
      unfold sF at hz
      rw [hk] at hz
      linarith
  · -- distinct values stay so for a while
    have hpos : 0 < |sF ε s τ - sF ε u τ| := abs_pos.mpr (sub_ne_zero.mpr hz)
    have hden : 0 < |sK ε s - sK ε u| + 1 := by linarith [abs_nonneg (sK ε s - sK ε u)]
    refine ⟨|sF ε s τ - sF ε u τ| / (|sK ε s - sK ε u| + 1), div_pos hpos hden, fun t h1 h2 => ?_⟩
    have k := key t
    have hp : 0 < t - τ := by linarith
    have b1 : (t - τ) * (|sK ε s - sK ε u| + 1) < |sF ε s τ - sF ε u τ| := by
      rw [← lt_div_iff₀ hden]; linarith
    have b2 : |(sK ε s - sK ε u) * (t - τ)| < |sF ε s τ - sF ε u τ| := by
      rw [abs_mul, abs_of_pos hp]; nlinarith
    have b3 := abs_lt.mp b2
    have hne : sF ε s t ≠ sF ε u t := by
      intro e
      rw [e, sub_self] at k
      have : |(sK ε s - sK ε u) * (t - τ)| = |sF ε s τ - sF ε u τ| := by
        rw [← abs_neg]; congr 1; linarith
      rw [this] at b2
      exact lt_irrefl _ b2
    refine ⟨?_, fun e => absurd e hne⟩
    unfold sAbove
    rcases lt_or_gt_of_ne hz with z | z
    · rw [abs_of_neg (sub_neg.mpr z)] at b3
      exact ⟨fun _ => Or.inl z, fun _ => by linarith⟩
    · rw [abs_of_pos (sub_pos.mpr z)] at b3
      refine ⟨fun h => by linarith, ?_⟩
      rintro (h | ⟨h, _⟩)
      · linarith
      · exact absurd h hz

/-- One segment and a line to the right of an abscissa. -/
theorem near_seg (s u : Segment) (τ : ℚ) : ∃ d > 0, ∀ t, τ < t → t < τ + d →
    (sSpans ε s t ↔ sSpans ε s τ) ∧ (t ≠ Xe ε (hi s)) ∧
    (sF ε s t < sF ε u t ↔ sAbove ε s u τ) ∧ (sF ε s t = sF ε u t → sColl ε s u) := by
  obtain ⟨d, d0, hd⟩ := near_line (ε := ε) s u τ
  have bound : ∀ x : ℚ, ∃ e > 0, ∀ t, τ < t → t < τ + e → (x ≤ t ↔ x ≤ τ) ∧ (t < x ↔ τ < x) ∧ t ≠ x := by
    intro x
    by_cases h : x ≤ τ
    · refine ⟨1, one_pos, fun t h1 _ => ⟨⟨fun _ => h, fun _ => by linarith⟩, ⟨fun k => by linarith, fun k => by linarith⟩,
        by rintro rfl; linarith⟩⟩
    · rw [not_le] at h
      refine ⟨x - τ, by linarith, fun t h1 h2 => ⟨⟨fun k => by linarith, fun k => by linarith⟩,
        ⟨fun _ => h, fun _ => by linarith⟩, by rintro rfl; linarith⟩⟩
  obtain ⟨a, a0, ha⟩ := bound (Xe ε (lo s))
  obtain ⟨b, b0, hb⟩ := bound (Xe ε (hi s))
  refine ⟨min d (min a b), lt_min d0 (lt_min a0 b0), fun t h1 h2 => ?_⟩
  have m1 := min_le_left d (min a b)
  have m2 := (min_le_right d (min a b)).trans (min_le_left a b)
  have m3 := (min_le_right d (min a b)).trans (min_le_right a b)
  have k1 := hd t h1 (by linarith)
  have k2 := ha t h1 (by linarith)
  have k3 := hb t h1 (by linarith)
  refine ⟨?_, k3.2.2, k1⟩
  unfold sSpans
  rw [k2.1, k3.2.1]

theorem near_list (l : List Segment) (u : Segment) (τ : ℚ) : ∃ d > 0, ∀ t, τ < t → t < τ + d → ∀ s ∈ l,
    (sSpans ε s t ↔ sSpans ε s τ) ∧ (t ≠ Xe ε (hi s)) ∧
    (sF ε s t < sF ε u t ↔ sAbove ε s u τ) ∧ (sF ε s t = sF ε u t → sColl ε s u) := by
  induction l with
  | nil => exact ⟨1, one_pos, by simp⟩
  | cons s l ih =>
    obtain ⟨d, d0, hd⟩ := ih
    obtain ⟨e, e0, he⟩ := near_seg (ε := ε) s u τ
    refine ⟨min d e, lt_min d0 e0, fun t h1 h2 x hx => ?_⟩
    have m1 := min_le_left d e
    have m2 := min_le_right d e
    rcases List.mem_cons.mp hx with rfl | hx
    · exact he t h1 (by linarith)
    · exact hd t h1 (by linarith) x hx

/-- The direction of an edge from what is below it. -/
theorem Edges.dir_right {l : List Segment} {R : Set Point} (hE : Edges ε l R) (hno : NoOverlap l) {j : Segment}
    (hj : j ∈ l) {τ : ℚ} (hτ : sSpans ε j τ) {g : Segment → Bool}
    (hg : ∀ s ∈ l, (g s = true ↔ sSpans ε s τ ∧ sAbove ε s j τ)) : goesUp j = !xorSum g l := by
  obtain ⟨d, d0, hd⟩ := near_list (ε := ε) (j :: l) j τ
  set t := τ + d / 2 with ht
  have h1 : τ < t := by linarith
  have h2 : t < τ + d := by linarith
  have kj := hd t h1 h2 j (by simp)
  have sj : sSpans ε j t := kj.1.mpr hτ
  have inc := hE.inc j hj
  have hz : pt ε j t ∈ openSeg j.start j.end := pt_openSeg inc (lt_of_le_of_lt hτ.1 h1) sj.2
  have hy : (pt ε j t).y = sF ε j t := rfl
  rw [hE.dir j hj _ hz]
  · congr 1
    refine xorSum_congr fun s hs => bool_eq_of_iff ?_
    rw [below_sF (hE.inc s hs), hg s hs, Xe_pt, hy]
    have k := hd t h1 h2 s (by simp [hs])
    rw [k.1, k.2.2.1]
  · intro s hs hne hm
    rw [mem_segPts_sF (hE.inc s hs), Xe_pt, hy] at hm
    obtain ⟨e, m1, m2⟩ := hm
    have k := hd t h1 h2 s (by simp [hs])
    have hc := k.2.2.2 e.symm
    have ss : sSpans ε s τ := k.1.mp ⟨m1, lt_of_le_of_ne m2 k.2.1⟩
    haveI : Std.Symm Apart := ⟨fun a b h => by unfold Apart at *; rwa [Set.inter_comm]⟩
    have ap : Apart s j := hno.2.forall hs hj hne
    have p1 : pt ε s t = pt ε j t := by unfold pt; rw [hc.f_eq]
    have p2 : pt ε s ((τ + t) / 2) = pt ε j ((τ + t) / 2) := by unfold pt; rw [hc.f_eq]
    have q := ap (pt ε s t) ⟨pt_mem (hE.inc s hs) m1 m2, by rw [p1]; exact pt_mem inc sj.1 sj.2.le⟩
      (pt ε s ((τ + t) / 2)) ⟨pt_mem (hE.inc s hs) (by linarith [ss.1]) (by linarith), by
        rw [p2]; exact pt_mem inc (by linarith [hτ.1]) (by linarith [sj.2])⟩
    have := congrArg (Xe ε) q
    rw [Xe_pt, Xe_pt] at this
    linarith

end

/-! ### The requirements on the values -/

/-- The vertices passed below the segment between two abscissas. -/
def passed (ε : ℚ) (u : Segment) (τ1 τ2 : ℚ) (v : Point) : Bool :=
  decide (τ1 < Xe ε v ∧ Xe ε v ≤ τ2 ∧ v.y < sF ε u (Xe ε v))

theorem passed_iff {ε : ℚ} {u : Segment} {τ1 τ2 : ℚ} {v : Point} : passed ε u τ1 τ2 v = true ↔
    τ1 < Xe ε v ∧ Xe ε v ≤ τ2 ∧ v.y < sF ε u (Xe ε v) := by unfold passed; rw [decide_eq_true_eq]

theorem gb_jump {ε : ℚ} {T : Bool} {u s : Segment} {τ1 τ2 : ℚ} (h12 : τ1 < τ2) (inc : Xe ε (lo s) < Xe ε (hi s))
    (h : (∀ t, Xe ε (lo s) ≤ t → t ≤ Xe ε (hi s) → τ1 < t → t ≤ τ2 → sF ε s t < sF ε u t) ∨
      (∀ t, Xe ε (lo s) ≤ t → t ≤ Xe ε (hi s) → τ1 < t → t ≤ τ2 → sF ε u t < sF ε s t ∨
        (sF ε u t = sF ε s t ∧ t = Xe ε (lo s) ∧ t = τ2 ∧ sK ε u < sK ε s)) ∨
      (sColl ε u s ∧ (sSpans ε s τ1 ↔ sSpans ε s τ2))) :
    (gb ε T u τ1 s ^^ gb ε T u τ2 s) = (passed ε u τ1 τ2 s.start ^^ passed ε u τ1 τ2 s.end) := by
  have e : (passed ε u τ1 τ2 s.start ^^ passed ε u τ1 τ2 s.end) =
      (passed ε u τ1 τ2 (lo s) ^^ passed ε u τ1 τ2 (hi s)) := by
    rcases lo_hi_or s with ⟨e1, e2⟩ | ⟨e1, e2⟩ <;> rw [e1, e2]
    rw [Bool.xor_comm]
  rw [e]
  have g1 := gb_iff (ε := ε) (T := T) (u := u) (τ := τ1) (s := s)
  have g2 := gb_iff (ε := ε) (T := T) (u := u) (τ := τ2) (s := s)
  have p1 := passed_iff (ε := ε) (u := u) (τ1 := τ1) (τ2 := τ2) (v := lo s)
  have p2 := passed_iff (ε := ε) (u := u) (τ1 := τ1) (τ2 := τ2) (v := hi s)
  rw [← sF_lo (ε := ε)] at p1
  rw [← sF_hi inc] at p2
  -- just after `τ1`
  obtain ⟨d, d0, hd⟩ := near_seg (ε := ε) s u τ1
  have mid : ∃ t, τ1 < t ∧ t < τ2 ∧ t < τ1 + d := by
    refine ⟨τ1 + min (τ2 - τ1) d / 2, ?_, ?_, ?_⟩
    · have : 0 < min (τ2 - τ1) d := lt_min (by linarith) d0
      linarith
    · have := min_le_left (τ2 - τ1) d
      linarith
    · have := min_le_right (τ2 - τ1) d
      linarith
  obtain ⟨t, t1, t2, t3⟩ := mid
  have kd := hd t t1 t3
  rcases h with h | h | ⟨hc, h⟩
  · -- below
    have a1 : sSpans ε s τ1 → sAbove ε s u τ1 := by
      intro k
      have k' := kd.1.mpr k
      exact kd.2.2.1.mp (h t k'.1 k'.2.le t1 t2.le)
    have a2 : sSpans ε s τ2 → sAbove ε s u τ2 := fun k => Or.inl (h τ2 k.1 k.2.le h12 le_rfl)
    have g1' : gb ε T u τ1 s = true ↔ Xe ε (lo s) ≤ τ1 ∧ τ1 < Xe ε (hi s) :=
      g1.trans ⟨fun k => k.1, fun k => ⟨k, Or.inl (a1 k)⟩⟩
    have g2' : gb ε T u τ2 s = true ↔ Xe ε (lo s) ≤ τ2 ∧ τ2 < Xe ε (hi s) :=
      g2.trans ⟨fun k => k.1, fun k => ⟨k, Or.inl (a2 k)⟩⟩
    have p1' : passed ε u τ1 τ2 (lo s) = true ↔ τ1 < Xe ε (lo s) ∧ Xe ε (lo s) ≤ τ2 :=
      p1.trans ⟨fun k => ⟨k.1, k.2.1⟩, fun k => ⟨k.1, k.2, h _ le_rfl inc.le k.1 k.2⟩⟩
    have p2' : passed ε u τ1 τ2 (hi s) = true ↔ τ1 < Xe ε (hi s) ∧ Xe ε (hi s) ≤ τ2 :=
      p2.trans ⟨fun k => ⟨k.1, k.2.1⟩, fun k => ⟨k.1, k.2, h _ inc.le le_rfl k.1 k.2⟩⟩
    clear h a1 a2 g1 g2 p1 p2 kd hd e
    generalize gb ε T u τ1 s = A at *
    generalize gb ε T u τ2 s = B at *
    generalize passed ε u τ1 τ2 (lo s) = C at *
    generalize passed ε u τ1 τ2 (hi s) = D at *
    grind
  · -- above
    have g1' : gb ε T u τ1 s = false := by
      refine bool_false fun k => ?_
      obtain ⟨k1, k2⟩ := g1.mp k
      have k1' := kd.1.mpr k1
      have k3 : sF ε u t < sF ε s t := by
        rcases h t k1'.1 k1'.2.le t1 t2.le with z | ⟨_, _, z, _⟩
        · exact z
        · linarith
      rcases k2 with k2 | ⟨k2, _⟩
      · exact absurd (kd.2.2.1.mpr k2) k3.asymm
      · rw [k2.f_eq] at k3; exact lt_irrefl _ k3
    have g2' : gb ε T u τ2 s = false := by
      refine bool_false fun k => ?_
      obtain ⟨k1, k2⟩ := g2.mp k
      rcases h τ2 k1.1 k1.2.le h12 le_rfl with z | ⟨z1, _, _, z2⟩
      · rcases k2 with (k2 | ⟨k2, _⟩) | ⟨k2, _⟩
        · exact absurd k2 z.asymm
        · rw [k2] at z; exact lt_irrefl _ z
        · rw [k2.f_eq] at z; exact lt_irrefl _ z
      · rcases k2 with (k2 | ⟨_, k2⟩) | ⟨k2, _⟩
        · rw [z1] at k2; exact lt_irrefl _ k2
        · exact absurd k2 z2.asymm
        · rw [k2.1] at z2; exact lt_irrefl _ z2
    have p1' : passed ε u τ1 τ2 (lo s) = false := by
      refine bool_false fun k => ?_
      obtain ⟨k1, k2, k3⟩ := p1.mp k
      rcases h _ le_rfl inc.le k1 k2 with z | ⟨z, _⟩ <;> linarith
    have p2' : passed ε u τ1 τ2 (hi s) = false := by
      refine bool_false fun k => ?_
      obtain ⟨k1, k2, k3⟩ := p2.mp k
      rcases h _ inc.le le_rfl k1 k2 with z | ⟨z, _⟩ <;> linarith
    rw [g1', g2', p1', p2']
  · have hc' : sColl ε s u := ⟨hc.1.symm, hc.2.symm⟩
    have p1' : passed ε u τ1 τ2 (lo s) = false := bool_false fun k => by
      have := (p1.mp k).2.2; rw [hc.f_eq] at this; exact lt_irrefl _ this
    have p2' : passed ε u τ1 τ2 (hi s) = false := bool_false fun k => by
      have := (p2.mp k).2.2; rw [hc.f_eq] at this; exact lt_irrefl _ this
    have g12 : gb ε T u τ1 s = gb ε T u τ2 s := by
      refine bool_eq_of_iff ?_
      rw [g1, g2, h]
      refine and_congr_right fun _ => ?_
      constructor
      · rintro (k | k)
        · exact absurd k (hc'.not_above _)
        · exact Or.inr k
      · rintro (k | k)
        · exact absurd k (hc'.not_above _)
        · exact Or.inr k
    rw [g12, p1', p2', Bool.xor_self]; rfl

/-- The values for the segments of operand `T`, when the other operand consists of the edges `full` of a
shape, apart from edges which are to the left or to the right of everything which matters. -/
theorem mix_lab {ε : ℚ} {first second full : List Segment} {R : Set Point} {T : Bool} {ok : ℚ → Prop}
    (hE : Edges ε full R) (hno : NoOverlap full)
    (hin : ∀ i < (first ++ second).length, opB (ctxOf first second ε) i ≠ T → segAt (first ++ second) i ∈ full)
    (hkeep : ∀ s ∈ full, (∃ k < (first ++ second).length, opB (ctxOf first second ε) k ≠ T ∧ segAt (first ++ second) k = s) ∨
      (∀ τ, ok τ → Xe ε (hi s) ≤ τ) ∨ (∀ τ, ok τ → τ < Xe ε (lo s))) :
    Lab (ctxOf first second ε) T (inteOf (Mix.init first second))
      (fun i τ => xorSum (gb ε T (segAt (first ++ second) i) τ) full) ok := by
  set c := ctxOf first second ε with hc
  have hN : c.N = (first ++ second).length := rfl
  have hX : ∀ p, c.X p = Xe ε p := fun _ => rfl
  have hA : ∀ i, c.A i = lo (segAt (first ++ second) i) := fun _ => rfl
  have hB : ∀ i, c.B i = hi (segAt (first ++ second) i) := fun _ => rfl
  have hf : ∀ i t, c.f i t = sF ε (segAt (first ++ second) i) t := fun _ _ => rfl
  have hK : ∀ i, c.K i = sK ε (segAt (first ++ second) i) := fun _ => rfl
  have hsp : ∀ i τ, Spans c i τ ↔ sSpans ε (segAt (first ++ second) i) τ := fun _ _ => Iff.rfl
  have hco : ∀ i j, c.Coll i j ↔ sColl ε (segAt (first ++ second) i) (segAt (first ++ second) j) := fun _ _ => Iff.rfl
  have hab : ∀ i j τ, AboveR c i j τ ↔ sAbove ε (segAt (first ++ second) i) (segAt (first ++ second) j) τ :=
    fun _ _ _ => Iff.rfl
  have notOk : ∀ s ∈ full, ∀ τ, ok τ → sSpans ε s τ → ∃ k < c.N, opB c k ≠ T ∧ segAt (first ++ second) k = s := by
    intro s hs τ hτ hsp
    rcases hkeep s hs with h | h | h
    · exact h
    · exact absurd (h τ hτ) (not_le.mpr hsp.2)
    · exact absurd (h τ hτ) (not_lt.mpr hsp.1)
  -- the contribution of a segment of the other operand
  have hgb : ∀ i k τ, opB c i = T → opB c k ≠ T →
      (gb ε T (segAt (first ++ second) i) τ (segAt (first ++ second) k) = true ↔ Spans c k τ ∧ BelowE c k i τ) := by
    intro i k τ hi hk
    rw [gb_iff, hsp]
    refine and_congr_right fun _ => ?_
    unfold BelowE
    rw [hab]
    refine or_congr_right ?_
    rw [hco]
    refine and_congr_right fun _ => ?_
    unfold opB at hi hk
    constructor
    · intro e
      rw [e] at hi hk
      rw [decide_eq_false_iff_not] at hi
      have : decide (k < c.F) = true := by simpa using hk
      exact ⟨of_decide_eq_true this, hi⟩
    · rintro ⟨_, h2⟩
      rw [← hi]; exact decide_eq_false h2
  constructor
  · -- nothing below
    intro i hi hT τ hτ hs hno'
    refine xorSum_false fun s hs' => bool_false fun k => ?_
    obtain ⟨k', hk', hop, rfl⟩ := notOk s hs' τ hτ (gb_iff.mp k).1
    obtain ⟨z1, z2⟩ := (hgb i k' τ hT hop).mp k
    exact hno' k' hk' z1 z2
  · -- a segment of the same operand below
    intro i hi j hj hTi hTj τ hτ hsi hsj hbe hlow
    refine xorSum_congr fun s hs' => bool_eq_of_iff ?_
    have key : ∀ i', gb ε T (segAt (first ++ second) i') τ s = true → ∃ k < c.N, opB c k ≠ T ∧ segAt (first ++ second) k = s :=
      fun i' k => notOk s hs' τ hτ (gb_iff.mp k).1
    constructor
    · intro k
      obtain ⟨k', hk', hop, rfl⟩ := key i k
      rw [hgb j k' τ hTj hop]
      obtain ⟨z1, z2⟩ := (hgb i k' τ hTi hop).mp k
      rcases hlow k' hk' z1 z2 with rfl | z
      · exact absurd hTj hop
      · exact ⟨z1, z⟩
    · intro k
      obtain ⟨k', hk', hop, rfl⟩ := key j k
      rw [hgb i k' τ hTi hop]
      obtain ⟨z1, z2⟩ := (hgb j k' τ hTj hop).mp k
      exact ⟨z1, belowE_trans z2 hbe⟩
  · -- an edge below
    intro i hi j hj hTi hTj τ hτ hsi hsj hbe hlow
    rw [mix_init_interior (by rw [← hN]; exact hj)]
    have hjm := hin j hj hTj
    have hd := hE.dir_right hno hjm (τ := τ) ((hsp j τ).mp hsj)
      (g := gs ε (segAt (first ++ second) j) τ) (fun s _ => gs_iff)
    rw [hd]
    refine eq_of_xor_true ?_
    rw [xorSum_at (nodup_of_noOverlap hno) hjm ?_]
    · have e1 : gb ε T (segAt (first ++ second) i) τ (segAt (first ++ second) j) = true :=
        (hgb i j τ hTi hTj).mpr ⟨hsj, hbe⟩
      rw [e1, Bool.true_xor, Bool.not_eq_true']
      exact bool_false fun k => sColl.not_above ⟨rfl, rfl⟩ _ (gs_iff.mp k).2
    · intro s hs' hne
      refine bool_eq_of_iff ?_
      rw [gs_iff]
      constructor
      · intro k
        obtain ⟨k', hk', hop, rfl⟩ := notOk s hs' τ hτ (gb_iff.mp k).1
        obtain ⟨z1, z2⟩ := (hgb i k' τ hTi hop).mp k
        refine ⟨(hsp k' τ).mp z1, ?_⟩
        rcases hlow k' hk' z1 z2 with rfl | z
        · exact absurd rfl hne
        · rcases z with z | ⟨_, z3, z4⟩
          · exact z
          · exfalso
            unfold opB at hop hTj
            rw [decide_eq_true z3] at hop
            rw [decide_eq_false z4] at hTj
            cases T
            · exact hTj rfl
            · exact hop rfl
      · rintro ⟨k1, k2⟩
        obtain ⟨k', hk', hop, rfl⟩ := notOk s hs' τ hτ k1
        rw [hgb i k' τ hTi hop]
        exact ⟨k1, belowE_trans (Or.inl k2) hbe⟩
  · -- along a segment
    intro i hi' hTi τ1 τ2 ok1 ok2 h1 h12 h2 hcls
    refine eq_of_xor_false ?_
    rw [xor_comm4, ← hE.closed (passed ε (segAt (first ++ second) i) τ1 τ2)]
    refine xorSum_congr fun s hs' => ?_
    have inc := hE.inc s hs'
    rcases hkeep s hs' with ⟨k, hk, hop, rfl⟩ | h | h
    · exact gb_jump h12 inc (hcls k hk hop)
    · have hh := h τ1 ok1
      have a1 : ∀ τ, τ1 ≤ τ → gb ε T (segAt (first ++ second) i) τ s = false := fun τ hτ =>
        bool_false fun k => by have := (gb_iff.mp k).1.2; linarith
      have a2 : ∀ v, Xe ε v ≤ Xe ε (hi s) → passed ε (segAt (first ++ second) i) τ1 τ2 v = false := fun v hv =>
        bool_false fun k => by have := (passed_iff.mp k).1; linarith
      rw [a1 τ1 le_rfl, a1 τ2 h12.le]
      rcases lo_hi_or s with ⟨e1, e2⟩ | ⟨e1, e2⟩ <;> rw [e1, e2] at inc <;> rw [e2] at a2
      · rw [a2 _ inc.le, a2 _ le_rfl]
      · rw [a2 _ inc.le, a2 _ le_rfl]
    · have hh := h τ2 ok2
      have a1 : ∀ τ, τ ≤ τ2 → gb ε T (segAt (first ++ second) i) τ s = false := fun τ hτ =>
        bool_false fun k => by have := (gb_iff.mp k).1.1; linarith
      have a2 : ∀ v, Xe ε (lo s) ≤ Xe ε v → passed ε (segAt (first ++ second) i) τ1 τ2 v = false := fun v hv =>
        bool_false fun k => by have := (passed_iff.mp k).2.1; linarith
      rw [a1 τ1 h12.le, a1 τ2 le_rfl]
      rcases lo_hi_or s with ⟨e1, e2⟩ | ⟨e1, e2⟩ <;> rw [e1, e2] at inc <;> rw [e1] at a2
      · rw [a2 _ inc.le, a2 _ le_rfl]
      · rw [a2 _ inc.le, a2 _ le_rfl]

end Rene.Sweep
