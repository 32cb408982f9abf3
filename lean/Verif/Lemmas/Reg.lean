import Verif.Lemmas.SegmentBool

/-! Regularisation: differences, intersections and unions of finite unions of segments are determined
by the componentwise conditions used in the proofs. -/

namespace Rene
open Spec

theorem mem_seg_iff_box {a b p : Point} :
    p ∈ seg a b ↔ cr a b p = 0 ∧ p ∈ boxPts (Segment.boundingBox ⟨a, b⟩) := by
  constructor
  · intro h
    exact ⟨(mem_seg_iff.mp h).1, segPts_subset_boundingBox ⟨a, b⟩ h⟩
  · rintro ⟨h0, h⟩
    rw [mem_boxPts] at h
    simp only [Segment.boundingBox] at h
    by_cases hab : a = b
    · subst hab
      simp only [min_self, max_self] at h
      have : p = a := Point.ext' (le_antisymm h.2.1 h.1) (le_antisymm h.2.2.2 h.2.2.1)
      subst this; exact start_mem_seg _ _
    · obtain ⟨t, rfl⟩ := exists_lerp hab h0
      have key : ∀ u v : ℚ, u ≠ v → min v u ≤ u + t * (v - u) → u + t * (v - u) ≤ max v u → 0 ≤ t ∧ t ≤ 1 := by
        intro u v huv h1 h2
        rcases lt_or_gt_of_ne huv with g | g
        · rw [min_eq_right g.le] at h1; rw [max_eq_left g.le] at h2
          constructor <;> nlinarith
        · rw [min_eq_left g.le] at h1; rw [max_eq_right g.le] at h2
          constructor <;> nlinarith
      simp only [lerp] at h
      by_cases hx : a.x = b.x
      · have hy : a.y ≠ b.y := fun hy => hab (Point.ext' hx hy)
        obtain ⟨k1, k2⟩ := key a.y b.y hy h.2.2.1 h.2.2.2
        exact ⟨t, k1, k2, rfl⟩
      · obtain ⟨k1, k2⟩ := key a.x b.x hx h.1 h.2.1
        exact ⟨t, k1, k2, rfl⟩

theorem affine_pos {u : ℚ} (v : ℚ) (hu : 0 < u) : ∃ ε : ℚ, 0 < ε ∧ ∀ t, 0 < t → t < ε → 0 < u + t * (v - u) := by
  by_cases h : u ≤ v
  · exact ⟨1, by norm_num, fun t h0 _ => by nlinarith⟩
  · push Not at h
    refine ⟨u / (u - v), div_pos hu (by linarith), fun t h0 h1 => ?_⟩
    rw [lt_div_iff₀ (by linarith)] at h1
    nlinarith

/-- A segment is closed: leaving from a point outside one stays outside for a while. -/
theorem seg_closed {a b p : Point} (q : Point) (h : p ∉ seg a b) :
    ∃ ε : ℚ, 0 < ε ∧ ∀ t, 0 < t → t < ε → lerp p q t ∉ seg a b := by
  by_cases h0 : cr a b p = 0
  · have hb : p ∉ boxPts (Segment.boundingBox ⟨a, b⟩) := fun hb => h (mem_seg_iff_box.mpr ⟨h0, hb⟩)
    generalize hB : Segment.boundingBox ⟨a, b⟩ = B at *
    rw [mem_boxPts] at hb
    have out : ∀ r, r ∈ seg a b → B.minX ≤ r.x ∧ r.x ≤ B.maxX ∧ B.minY ≤ r.y ∧ r.y ≤ B.maxY := by
      intro r hr; rw [← hB]; exact mem_boxPts.mp (mem_seg_iff_box.mp hr).2
    have hc : p.x < B.minX ∨ B.maxX < p.x ∨ p.y < B.minY ∨ B.maxY < p.y := by
      by_contra hh; push Not at hh; exact hb hh
    rcases hc with g | g | g | g
    · obtain ⟨ε, e0, e⟩ := affine_pos (u := B.minX - p.x) (B.minX - q.x) (by linarith)
      exact ⟨ε, e0, fun t t0 t1 hm => by
        have := out _ hm; have := e t t0 t1; simp only [lerp] at *; linarith⟩
    · obtain ⟨ε, e0, e⟩ := affine_pos (u := p.x - B.maxX) (q.x - B.maxX) (by linarith)
      exact ⟨ε, e0, fun t t0 t1 hm => by
        have := out _ hm; have := e t t0 t1; simp only [lerp] at *; linarith⟩
    · obtain ⟨ε, e0, e⟩ := affine_pos (u := B.minY - p.y) (B.minY - q.y) (by linarith)
      exact ⟨ε, e0, fun t t0 t1 hm => by
        have := out _ hm; have := e t t0 t1; simp only [lerp] at *; linarith⟩
    · obtain ⟨ε, e0, e⟩ := affine_pos (u := p.y - B.maxY) (q.y - B.maxY) (by linarith)
      exact ⟨ε, e0, fun t t0 t1 hm => by
        have := out _ hm; have := e t t0 t1; simp only [lerp] at *; linarith⟩
  · have on : ∀ r, r ∈ seg a b → cr a b r = 0 := fun r hr => (mem_seg_iff.mp hr).1
    rcases lt_or_gt_of_ne h0 with g | g
    · obtain ⟨ε, e0, e⟩ := affine_pos (u := - cr a b p) (- cr a b q) (by linarith)
      exact ⟨ε, e0, fun t t0 t1 hm => by
        have := on _ hm; have := e t t0 t1; rw [cr_lerp] at *; linarith⟩
    · obtain ⟨ε, e0, e⟩ := affine_pos (u := cr a b p) (cr a b q) g
      exact ⟨ε, e0, fun t t0 t1 hm => by
        have := on _ hm; have := e t t0 t1; rw [cr_lerp] at *; linarith⟩

theorem segsPts_closed {l : List Segment} {p : Point} (q : Point) (h : p ∉ segsPts l) :
    ∃ ε : ℚ, 0 < ε ∧ ∀ t, 0 < t → t < ε → lerp p q t ∉ segsPts l := by
  induction l with
  | nil => exact ⟨1, by norm_num, fun t _ _ => by simp [segsPts_nil]⟩
  | cons s l ih =>
    rw [segsPts_cons, Set.mem_union, not_or] at h
    obtain ⟨ε, e0, e⟩ := ih h.2
    obtain ⟨δ, d0, d⟩ := seg_closed q h.1
    refine ⟨min ε δ, lt_min e0 d0, fun t t0 t1 => ?_⟩
    rw [segsPts_cons, Set.mem_union, not_or]
    exact ⟨d t t0 (lt_of_lt_of_le t1 (min_le_right _ _)), e t t0 (lt_of_lt_of_le t1 (min_le_left _ _))⟩

theorem reg_mono {S T : Set Point} (h : S ⊆ T) : reg S ⊆ reg T := by
  rintro p ⟨q, hq, hs⟩; exact ⟨q, hq, hs.trans h⟩

/-- A finite union of segments contains its one-dimensional limit points. -/
theorem reg_subset_segsPts {S : Set Point} {l : List Segment} (h : S ⊆ segsPts l) : reg S ⊆ segsPts l := by
  rintro p ⟨q, hq, hs⟩
  by_contra hp
  obtain ⟨ε, e0, e⟩ := segsPts_closed q hp
  have h1 : 0 < min ε 1 / 2 := by have := lt_min e0 (by norm_num : (0:ℚ) < 1); linarith
  have h2 : min ε 1 / 2 < ε := by have := min_le_left ε 1; linarith
  have h3 : min ε 1 / 2 < 1 := by have := min_le_right ε 1; linarith
  exact e _ h1 h2 (h (hs ⟨_, h1, h3, rfl⟩))

/-- In a non-degenerate segment every point has a neighbouring piece avoiding finitely many points. -/
theorem exists_dir {a b p : Point} (hab : a ≠ b) (hp : p ∈ seg a b) (F : List Point) :
    ∃ q, q ≠ p ∧ openSeg p q ⊆ seg a b ∧ ∀ z ∈ F, z ∉ openSeg p q := by
  -- pick the far end
  have : ∃ c, c ≠ p ∧ c ∈ seg a b := by
    by_cases h : a = p
    · exact ⟨b, by rintro rfl; exact hab h, end_mem_seg _ _⟩
    · exact ⟨a, h, start_mem_seg _ _⟩
  obtain ⟨c, hcp, hc⟩ := this
  induction F with
  | nil =>
    exact ⟨c, hcp, (openSeg_subset_seg _ _).trans (lerp_mem_seg hp hc), by simp⟩
  | cons z F ih =>
    obtain ⟨q, hq, hs, hF⟩ := ih
    by_cases hz : z ∈ openSeg p q
    · obtain ⟨t, t0, t1, rfl⟩ := hz
      refine ⟨lerp p q t, ?_, ?_, ?_⟩
      · intro h
        have := lerp_inj hq.symm (h.trans (lerp_zero p q).symm); linarith
      · rintro r ⟨u, u0, u1, rfl⟩
        apply hs
        refine ⟨u * t, by positivity, by nlinarith, ?_⟩
        apply Point.ext' <;> simp only [lerp] <;> ring
      · intro w hw
        rcases List.mem_cons.mp hw with rfl | hw
        · exact not_mem_openSeg_right (fun h => by
            have := lerp_inj hq.symm (h.symm.trans (lerp_zero p q).symm); linarith)
        · rintro ⟨u, u0, u1, rfl⟩
          apply hF _ hw
          refine ⟨u * t, by positivity, by nlinarith, ?_⟩
          apply Point.ext' <;> simp only [lerp] <;> ring
    · refine ⟨q, hq, hs, ?_⟩
      intro w hw
      rcases List.mem_cons.mp hw with rfl | hw
      · exact hz
      · exact hF w hw

/-- Non-degenerate components which lie in `A` and meet `B` in finitely many points are in the
regularised difference. -/
theorem segPts_subset_reg {s : Segment} {A B : Set Point} (hs : s.start ≠ s.end) (hA : segPts s ⊆ A)
    (F : List Point) (hB : ∀ p ∈ segPts s, p ∈ B → p ∈ F) : segPts s ⊆ reg (A \ B) := by
  intro p hp
  obtain ⟨q, hq, hsub, hF⟩ := exists_dir hs hp F
  refine ⟨q, hq, fun r hr => ⟨hA (hsub hr), fun hrB => ?_⟩⟩
  exact hF r (hB r (hsub hr) hrB) hr

theorem reg_of_isDiff {l : List Segment} {A B : Set Point} (h : IsDiff l A B)
    (hl : ∀ s ∈ l, s.start ≠ s.end) : segsPts l = reg (A \ B) := by
  apply Set.Subset.antisymm
  · rintro p ⟨s, hs, hp⟩
    have hA : segPts s ⊆ A := fun q hq => h.sub ⟨s, hs, hq⟩
    by_cases hne : (segPts s ∩ B).Nonempty
    · obtain ⟨z, hz⟩ := hne
      exact segPts_subset_reg (hl s hs) hA [z]
        (fun r hr hrB => by rw [h.apart s hs r ⟨hr, hrB⟩ z hz]; simp) hp
    · exact segPts_subset_reg (hl s hs) hA []
        (fun r hr hrB => (hne ⟨r, hr, hrB⟩).elim) hp
  · exact reg_subset_segsPts h.sup

/-- Regularisation of an intersection of a segment with a segment. -/
theorem reg_atMostOne {S : Set Point} (h : AtMostOne S) : reg S = ∅ := by
  apply Set.eq_empty_of_forall_notMem
  rintro p ⟨q, hq, hs⟩
  have := h (lerp p q (1/2)) (hs ⟨1/2, by norm_num, by norm_num, rfl⟩)
    (lerp p q (1/3)) (hs ⟨1/3, by norm_num, by norm_num, rfl⟩)
  have := lerp_inj hq.symm this
  norm_num at this

theorem reg_segsPts {l : List Segment} (hl : ∀ s ∈ l, s.start ≠ s.end) : reg (segsPts l) = segsPts l := by
  have := reg_of_isDiff (l := l) (A := segsPts l) (B := ∅) ⟨le_refl _, by simp, by
    intro r _; simp [AtMostOne]⟩ hl
  rw [Set.diff_empty] at this
  exact this.symm

theorem reg_segPts {s : Segment} (hs : s.start ≠ s.end) : reg (segPts s) = segPts s := by
  rw [← segsPts_single]; exact reg_segsPts (by simpa using hs)


theorem shrink_dir {p q : Point} (hq : q ≠ p) (F : List Point) :
    ∃ q', q' ≠ p ∧ openSeg p q' ⊆ openSeg p q ∧ ∀ z ∈ F, z ∉ openSeg p q' := by
  obtain ⟨q', h1, h2, h3⟩ := exists_dir hq.symm (start_mem_seg p q) (q :: F)
  refine ⟨q', h1, ?_, fun z hz => h3 z (List.mem_cons_of_mem _ hz)⟩
  intro r hr
  rw [mem_openSeg_iff hq.symm]
  refine ⟨h2 hr, ?_, ?_⟩
  · rintro rfl; exact not_mem_openSeg_left h1.symm hr
  · rintro rfl; exact h3 _ (List.mem_cons_self) hr

/-- Non-degenerate segments which agree with a set up to finitely many points are its
regularisation. -/
theorem reg_eq_of_finite {l : List Segment} {S : Set Point} (hl : ∀ s ∈ l, s.start ≠ s.end)
    (F : List Point) (h1 : ∀ p ∈ segsPts l, p ∉ F → p ∈ S) (h2 : ∀ p ∈ S, p ∉ F → p ∈ segsPts l) :
    segsPts l = reg S := by
  apply Set.Subset.antisymm
  · rintro p ⟨s, hs, hp⟩
    obtain ⟨q, hq, hsub, hF⟩ := exists_dir (hl s hs) hp F
    exact ⟨q, hq, fun r hr => h1 r ⟨s, hs, hsub hr⟩ (fun hrF => hF r hrF hr)⟩
  · rintro p ⟨q, hq, hs⟩
    obtain ⟨q', hq', hsub, hF⟩ := shrink_dir hq F
    apply reg_subset_segsPts (S := segsPts l) (fun _ h => h)
    exact ⟨q', hq', fun r hr => h2 r (hs (hsub hr)) (fun hrF => hF r hrF hr)⟩

end Rene
