import Verif.Lemmas.Sweep.ShpEven
import Verif.Lemmas.ShapedOps
import Verif.Lemmas.Sweep.ShpKls

/-! Points near a given one which are off given segments. -/

namespace Rene.Sweep
open Rene Spec

/-- Near a point. -/
def Near (q : Point) (r : ℚ) (z : Point) : Prop := |z.x - q.x| < r ∧ |z.y - q.y| < r

theorem Near.mono {q z : Point} {r r' : ℚ} (h : Near q r z) (k : r ≤ r') : Near q r' z :=
  ⟨lt_of_lt_of_le h.1 k, lt_of_lt_of_le h.2 k⟩

theorem near_self {q : Point} {r : ℚ} (h : 0 < r) : Near q r q := by
  unfold Near; rw [sub_self, sub_self, abs_zero]; exact ⟨h, h⟩

theorem Near.seg {q z w : Point} {r : ℚ} (h : Near q r z) (hw : w ∈ seg q z) : Near q r w := by
  obtain ⟨t, t0, t1, rfl⟩ := hw
  have e1 : (lerp q z t).x - q.x = t * (z.x - q.x) := by unfold lerp; simp only; ring
  have e2 : (lerp q z t).y - q.y = t * (z.y - q.y) := by unfold lerp; simp only; ring
  unfold Near
  rw [e1, e2, abs_mul, abs_mul, abs_of_nonneg t0]
  have a1 := abs_nonneg (z.x - q.x)
  have a2 := abs_nonneg (z.y - q.y)
  obtain ⟨h1, h2⟩ := h
  constructor <;> nlinarith

theorem near_pos {α β γ : ℚ} {q : Point} (h : 0 < α * q.x + β * q.y + γ) : ∃ r > 0, ∀ z, Near q r z →
    0 < α * z.x + β * z.y + γ := by
  set g := α * q.x + β * q.y + γ with hg
  have hd : 0 < |α| + |β| + 1 := by positivity
  refine ⟨g / (|α| + |β| + 1), by positivity, fun z ⟨h1, h2⟩ => ?_⟩
  set r := g / (|α| + |β| + 1) with hr
  have hrg : r * (|α| + |β| + 1) = g := by rw [hr]; field_simp
  have r0 : 0 < r := by positivity
  have e : α * z.x + β * z.y + γ = g + α * (z.x - q.x) + β * (z.y - q.y) := by rw [hg]; ring
  have b1 : -(|α| * r) ≤ α * (z.x - q.x) := by
    have := neg_abs_le (α * (z.x - q.x))
    rw [abs_mul] at this
    have := mul_le_mul_of_nonneg_left h1.le (abs_nonneg α)
    linarith
  have b2 : -(|β| * r) ≤ β * (z.y - q.y) := by
    have := neg_abs_le (β * (z.y - q.y))
    rw [abs_mul] at this
    have := mul_le_mul_of_nonneg_left h2.le (abs_nonneg β)
    linarith
  rw [e]
  nlinarith

theorem near_off {ε : ℚ} {s : Segment} (hs : Xe ε (lo s) < Xe ε (hi s)) {q : Point} (h : q ∉ segPts s) :
    ∃ r > 0, ∀ z, Near q r z → z ∉ segPts s := by
  rw [mem_segPts_sF hs] at h
  have cases : (0 < (-(sK ε s)) * q.x + (1 - sK ε s * ε) * q.y + (-(sC ε s))) ∨
      (0 < sK ε s * q.x + (sK ε s * ε - 1) * q.y + sC ε s) ∨
      (0 < (-1) * q.x + (-ε) * q.y + Xe ε (lo s)) ∨ (0 < 1 * q.x + ε * q.y + (-(Xe ε (hi s)))) := by
    by_contra hn
    simp only [not_or, not_lt] at hn
    obtain ⟨n1, n2, n3, n4⟩ := hn
    refine h ⟨?_, ?_, ?_⟩
    · unfold sF Xe; nlinarith
    · show _ ≤ q.x + ε * q.y; linarith
    · show q.x + ε * q.y ≤ _; linarith
  rcases cases with k | k | k | k <;> obtain ⟨r, r0, hr⟩ := near_pos k <;> refine ⟨r, r0, fun z hz hm => ?_⟩ <;>
    have := hr z hz <;> rw [mem_segPts_sF hs] at hm <;> obtain ⟨m1, m2, m3⟩ := hm
  · unfold sF Xe at m1; nlinarith
  · unfold sF Xe at m1; nlinarith
  · have m2 : _ ≤ z.x + ε * z.y := m2
    linarith
  · have m3 : z.x + ε * z.y ≤ _ := m3
    linarith

theorem near_list_off {ε : ℚ} : ∀ {l : List Segment}, (∀ s ∈ l, Xe ε (lo s) < Xe ε (hi s)) → ∀ {q : Point}, q ∉ segsPts l →
    ∃ r > 0, ∀ z, Near q r z → z ∉ segsPts l
  | [], _, q, _ => ⟨1, one_pos, fun z _ ⟨s, hs, _⟩ => by cases hs⟩
  | s :: l, hl, q, hq => by
    obtain ⟨r1, p1, h1⟩ := near_off (hl s (by simp)) (q := q) fun k => hq ⟨s, by simp, k⟩
    obtain ⟨r2, p2, h2⟩ := near_list_off (l := l) (fun t ht => hl t (by simp [ht])) (q := q)
      fun ⟨t, ht, k⟩ => hq ⟨t, by simp [ht], k⟩
    refine ⟨min r1 r2, lt_min p1 p2, fun z hz ⟨t, ht, k⟩ => ?_⟩
    rcases List.mem_cons.mp ht with rfl | ht
    · exact h1 z (hz.mono (min_le_left _ _)) k
    · exact h2 z (hz.mono (min_le_right _ _)) ⟨t, ht, k⟩

theorem near_located {ε : ℚ} {A : List Contour} (hA : ∀ c ∈ A, ∀ s ∈ c.segments, Xe ε (lo s) < Xe ε (hi s)) {q : Point}
    (hq : ∀ c ∈ A, q ∉ contourPts c) : ∃ r > 0, ∀ z, Near q r z → ∀ c ∈ A, z ∉ contourPts c ∧
      locatePointInRegion c z = locatePointInRegion c q := by
  obtain ⟨r, r0, hr⟩ := near_list_off (l := A.flatMap Contour.segments) (ε := ε) (fun s hs => by
    obtain ⟨c, hc, k⟩ := List.mem_flatMap.mp hs
    exact hA c hc s k) (q := q) (by
    rintro ⟨s, hs, k⟩
    obtain ⟨c, hc, k'⟩ := List.mem_flatMap.mp hs
    exact hq c hc ⟨s, k', k⟩)
  have off : ∀ z, Near q r z → ∀ c ∈ A, z ∉ contourPts c := by
    rintro z hz c hc ⟨s, hs, k⟩
    exact hr z hz ⟨s, List.mem_flatMap.mpr ⟨c, hc, hs⟩, k⟩
  refine ⟨r, r0, fun z hz c hc => ⟨off z hz c hc, ?_⟩⟩
  refine (C23_constant_on_segment c q z ?_).symm
  exact Set.disjoint_left.mpr fun w hw => off w (hz.seg hw) c hc

/-- The point `d` above `q`, in the sheared coordinates. -/
def lift (ε : ℚ) (q : Point) (d : ℚ) : Point := ⟨q.x - ε * d, q.y + d⟩

theorem Xe_lift (ε : ℚ) (q : Point) (d : ℚ) : Xe ε (lift ε q d) = Xe ε q := by unfold Xe lift; simp only; ring

theorem near_lift {ε : ℚ} {q : Point} {r : ℚ} (h : 0 < r) : ∃ η > 0, ∀ d, |d| < η → Near q r (lift ε q d) := by
  have hp : 0 < |ε| + 1 := by positivity
  refine ⟨r / (|ε| + 1), by positivity, fun d hd => ?_⟩
  have e : r / (|ε| + 1) * (|ε| + 1) = r := by field_simp
  have hd0 := abs_nonneg d
  have he0 := abs_nonneg ε
  have k : |d| * (|ε| + 1) < r := by rw [← e]; exact mul_lt_mul_of_pos_right hd hp
  constructor
  · have : (lift ε q d).x - q.x = -(ε * d) := by unfold lift; simp only; ring
    rw [this, abs_neg, abs_mul]; nlinarith
  · have : (lift ε q d).y - q.y = d := by unfold lift; simp only; ring
    rw [this]; nlinarith

/-- A little above or below a point no segment is met. -/
theorem exists_clear {ε : ℚ} {F : List Segment} (hF : ∀ s ∈ F, Xe ε (lo s) < Xe ε (hi s)) (q : Point) :
    ∃ η > 0, ∀ d, 0 < |d| → |d| < η → lift ε q d ∉ segsPts F ∧ ∀ s ∈ F,
      (below ε s (lift ε q d) = true ↔ sSpans ε s (Xe ε q) ∧ (sF ε s (Xe ε q) < q.y ∨ sF ε s (Xe ε q) = q.y ∧ 0 < d)) := by
  obtain ⟨η, h0, hη⟩ := exists_eta F.length (fun j => sF ε (segAt F j) (Xe ε q)) q.y
  have hη' : ∀ s ∈ F, sF ε s (Xe ε q) ≠ q.y → η < |sF ε s (Xe ε q) - q.y| := by
    intro s hs hne
    obtain ⟨j, hj, rfl⟩ := mem_segAt hs
    exact hη j hj hne
  refine ⟨η, h0, fun d d0 d1 => ⟨?_, ?_⟩⟩
  · rintro ⟨s, hs, k⟩
    rw [mem_segPts_sF (hF s hs), Xe_lift] at k
    have k1 : q.y + d = _ := k.1
    by_cases e : sF ε s (Xe ε q) = q.y
    · rw [e] at k1
      have : d = 0 := by linarith
      rw [this, abs_zero] at d0
      exact lt_irrefl _ d0
    · have := hη' s hs e
      have e2 : sF ε s (Xe ε q) - q.y = d := by linarith
      rw [e2] at this
      linarith
  · intro s hs
    rw [below_sF (hF s hs), Xe_lift]
    show (_ ∧ sF ε s (Xe ε q) < q.y + d) ↔ _
    refine and_congr_right fun _ => ?_
    by_cases e : sF ε s (Xe ε q) = q.y
    · rw [e]
      constructor
      · intro k; exact Or.inr ⟨rfl, by linarith⟩
      · rintro (k | ⟨_, k⟩)
        · exact absurd k (lt_irrefl _)
        · linarith
    · have := hη' s hs e
      have hd := abs_lt.mp (lt_trans d1 this)
      constructor
      · intro k
        left
        by_contra hn
        rw [not_lt] at hn
        rw [abs_of_nonneg (by linarith)] at hd
        linarith [hd.2]
      · rintro (k | ⟨k, _⟩)
        · rw [abs_of_neg (by linarith)] at hd
          linarith [hd.1]
        · exact absurd k e

/-- Off a point of a segment there is an inner point of it nearby which is off other segments. -/
theorem slide {e : Segment} (he : e.start ≠ e.end) {q : Point} (hq : q ∈ segPts e) {L : List Segment}
    (hL : ∀ t ∈ L, Apart t e) {r : ℚ} (r0 : 0 < r) : ∃ w ∈ openSeg e.start e.end, Near q r w ∧ w ∉ segsPts L := by
  obtain ⟨F, hF⟩ := exceptional_box (l := L) (T := segPts e) hL
  obtain ⟨m, h1, h2, h3⟩ := exists_dir he hq (e.start :: e.end :: F)
  set D := |m.x - q.x| + |m.y - q.y| + r with hD
  have a1 := abs_nonneg (m.x - q.x)
  have a2 := abs_nonneg (m.y - q.y)
  have D0 : 0 < D := by linarith
  set t := r / (2 * D) with ht
  have t0 : 0 < t := by positivity
  have tD : t * D = r / 2 := by rw [ht]; field_simp
  have t1 : t < 1 := by
    rw [ht, div_lt_one (by positivity)]; linarith
  have hw : lerp q m t ∈ openSeg q m := ⟨t, t0, t1, rfl⟩
  have nF : ∀ z ∈ e.start :: e.end :: F, lerp q m t ≠ z := fun z hz k => h3 z hz (by rw [← k]; exact hw)
  refine ⟨lerp q m t, ?_, ?_, fun k => hF _ (fun z => nF _ (by simp [z]) rfl) k (h2 hw)⟩
  · rw [mem_openSeg_iff he]
    exact ⟨h2 hw, nF _ (by simp), nF _ (by simp)⟩
  · have e1 : (lerp q m t).x - q.x = t * (m.x - q.x) := by unfold lerp; simp only; ring
    have e2 : (lerp q m t).y - q.y = t * (m.y - q.y) := by unfold lerp; simp only; ring
    unfold Near
    rw [e1, e2, abs_mul, abs_mul, abs_of_pos t0]
    constructor <;> nlinarith

/-- Both sides of an edge are near its inner points. -/
theorem both_sides {ε : ℚ} {c : Contour} (hn : c.vertices.Nodup) (hX : ∀ s ∈ c.segments, Xe ε (lo s) < Xe ε (hi s))
    {e : Segment} (he : e ∈ c.segments) (hne : e.start ≠ e.end) {w : Point} (hw : w ∈ openSeg e.start e.end)
    (ho : ∀ t ∈ c.segments, t ≠ e → w ∉ segPts t) {r : ℚ} (r0 : 0 < r) {F : List Segment}
    (hF : ∀ s ∈ F, Xe ε (lo s) < Xe ε (hi s)) (b : Bool) : ∃ z, Near w r z ∧ z ∉ segsPts F ∧ z ∉ contourPts c ∧
      decide (locatePointInRegion c z = .interior) = b := by
  obtain ⟨η, η0, hη⟩ := exists_clear (F := F ++ c.segments) (ε := ε) (fun s hs => by
    rcases List.mem_append.mp hs with k | k
    · exact hF s k
    · exact hX s k) w
  obtain ⟨η', η0', hη'⟩ := near_lift (ε := ε) (q := w) r0
  set δ := min η η' / 2 with hδ
  have m0 : 0 < min η η' := lt_min η0 η0'
  have δ0 : 0 < δ := by rw [hδ]; linarith
  have δ1 : δ < η := by have := min_le_left η η'; rw [hδ]; linarith
  have δ2 : δ < η' := by have := min_le_right η η'; rw [hδ]; linarith
  have go : ∀ d, |d| = δ → Near w r (lift ε w d) ∧ lift ε w d ∉ segsPts F ∧ lift ε w d ∉ contourPts c := by
    intro d hd
    obtain ⟨k, _⟩ := hη d (by rw [hd]; exact δ0) (by rw [hd]; exact δ1)
    exact ⟨hη' d (by rw [hd]; exact δ2), fun ⟨s, hs, z⟩ => k ⟨s, by simp [hs], z⟩, fun ⟨s, hs, z⟩ => k ⟨s, by simp [hs], z⟩⟩
  have b1 := (hη δ (by rw [abs_of_pos δ0]; exact δ0) (by rw [abs_of_pos δ0]; exact δ1)).2
  have b2 := (hη (-δ) (by rw [abs_neg, abs_of_pos δ0]; exact δ0) (by rw [abs_neg, abs_of_pos δ0]; exact δ1)).2
  have g1 := go δ (abs_of_pos δ0)
  have g2 := go (-δ) (by rw [abs_neg, abs_of_pos δ0])
  have p1 := downParity_locate hX g1.2.2
  have p2 := downParity_locate hX g2.2.2
  have diff : (downParity ε (lift ε w δ) c.segments ^^ downParity ε (lift ε w (-δ)) c.segments) = true := by
    unfold downParity
    rw [xorSum_at (l := c.segments) (contour_nodup hn) he]
    · have hme := (mem_segPts_sF (hX e he) w).mp (openSeg_sub hw)
      have hlt : Xe ε w < Xe ε (hi e) := by
        refine lt_of_le_of_ne hme.2.2 fun k => ?_
        have hh := (mem_segPts_sF (hX e he) (hi e)).mp (by rw [segPts_eq]; exact end_mem_seg _ _)
        have : w = hi e := by
          have ey : w.y = (hi e).y := by rw [hme.1, hh.1, k]
          have ex : w.x = (hi e).x := by
            have : w.x + ε * w.y = (hi e).x + ε * (hi e).y := k
            rw [ey] at this; linarith
          cases w; cases h : hi e; rw [h] at ex ey; simp only at ex ey; rw [ex, ey]
        rw [mem_openSeg_iff hne] at hw
        rcases lo_hi_or e with ⟨_, z⟩ | ⟨_, z⟩
        · exact hw.2.2 (by rw [this, z])
        · exact hw.2.1 (by rw [this, z])
      have y1 : below ε e (lift ε w δ) = true := (b1 e (by simp [he])).mpr ⟨⟨hme.2.1, hlt⟩, Or.inr ⟨hme.1.symm, δ0⟩⟩
      have y2 : below ε e (lift ε w (-δ)) = false := by
        rw [Bool.eq_false_iff]
        intro k
        rcases ((b2 e (by simp [he])).mp k).2 with z | ⟨_, z⟩
        · rw [hme.1] at z; exact lt_irrefl _ z
        · linarith
      rw [y1, y2]; rfl
    · intro s hs hse
      rw [Bool.eq_iff_iff, b1 s (by simp [hs]), b2 s (by simp [hs])]
      refine and_congr_right fun sp => ?_
      have : sF ε s (Xe ε w) ≠ w.y := fun k => ho s hs hse ((mem_segPts_sF (hX s hs) w).mpr ⟨k.symm, sp.1, sp.2.le⟩)
      simp [this]
  rw [p1, p2] at diff
  by_cases k : decide (locatePointInRegion c (lift ε w δ) = .interior) = b
  · exact ⟨_, g1.1, g1.2.1, g1.2.2, k⟩
  · refine ⟨_, g2.1, g2.2.1, g2.2.2, ?_⟩
    revert diff k
    generalize decide (locatePointInRegion c (lift ε w δ) = .interior) = x
    generalize decide (locatePointInRegion c (lift ε w (-δ)) = .interior) = y
    cases x <;> cases y <;> cases b <;> decide

/-- Both sides of a contour are near its points, off other contours. -/
theorem dense_side {ε : ℚ} {c : Contour} (hs : SimpleContour c) (hX : ∀ s ∈ c.segments, Xe ε (lo s) < Xe ε (hi s))
    {q : Point} (hq : q ∈ contourPts c) {L : List Segment} (hL : ∀ t ∈ L, ∀ s ∈ c.segments, Apart t s) {r : ℚ} (r0 : 0 < r) :
    ∃ w, Near q r w ∧ w ∈ contourPts c ∧ w ∉ segsPts L ∧ ∀ r' > 0, ∀ F : List Segment,
      (∀ s ∈ F, Xe ε (lo s) < Xe ε (hi s)) → ∀ b : Bool, ∃ z, Near w r' z ∧ z ∉ segsPts F ∧ z ∉ contourPts c ∧
        decide (locatePointInRegion c z = .interior) = b := by
  obtain ⟨e, he, hqe⟩ := hq
  have hne := hs.2.2.1 e he
  obtain ⟨w, w1, w2, w3⟩ := slide hne hqe (L := L ++ c.segments.filter fun t => decide (t ≠ e)) (fun t ht => by
    rcases List.mem_append.mp ht with k | k
    · exact hL t k e he
    · obtain ⟨k1, k2⟩ := List.mem_filter.mp k
      rw [decide_eq_true_eq] at k2
      haveI : Std.Symm Apart := ⟨fun _ _ => apart_symm⟩
      exact (hs.2.2.2.imp fun z => z.1).forall k1 he k2) r0
  refine ⟨w, w2, ⟨e, he, openSeg_sub w1⟩, fun ⟨t, ht, k⟩ => w3 ⟨t, by simp [ht], k⟩, fun r' r0' F hF b => ?_⟩
  exact both_sides hs.2.1 hX he hne w1 (fun t ht hte k => w3 ⟨t, List.mem_append_right _
    (List.mem_filter.mpr ⟨ht, by rw [decide_eq_true_eq]; exact hte⟩), k⟩) r0' hF b

end Rene.Sweep
