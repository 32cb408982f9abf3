import Verif.Lemmas.Sweep.ShapeEdges
import Verif.Model.Helpers

/-! Dropping collinear vertices of a simple contour. -/

namespace Rene.Sweep
open Rene Spec

/-- The contour `ws` has the same points as `vs`. -/
structure Thin (vs ws : List Point) : Prop where
  simple : SimpleContour ⟨ws⟩
  sub : ∀ v ∈ ws, v ∈ vs
  par : ∀ ε p, downParity ε p (toContourSegments ws) = downParity ε p (toContourSegments vs)
  pts : segsPts (toContourSegments ws) = segsPts (toContourSegments vs)
  noOv : ∀ X, NoOverlap (toContourSegments vs ++ X) → NoOverlap (toContourSegments ws ++ X)
  ori : (⟨ws⟩ : Contour).orientation = (⟨vs⟩ : Contour).orientation

theorem Thin.refl {vs : List Point} (h : SimpleContour ⟨vs⟩) : Thin vs vs :=
  ⟨h, fun _ k => k, fun _ _ => rfl, rfl, fun _ k => k, rfl⟩

theorem Thin.trans {us vs ws : List Point} (h : Thin us vs) (k : Thin vs ws) : Thin us ws :=
  ⟨k.simple, fun v hv => h.sub v (k.sub v hv), fun ε p => (k.par ε p).trans (h.par ε p), k.pts.trans h.pts,
    fun X hX => k.noOv X (h.noOv X hX), k.ori.trans h.ori⟩

theorem noOverlap_perm {l l' : List Segment} (h : l.Perm l') (hf : NoOverlap l) : NoOverlap l' :=
  ⟨fun s hs => hf.1 s (h.mem_iff.mpr hs), (h.pairwise_iff (fun k => by
    unfold Apart at *; rw [Set.inter_comm]; exact k)).mp hf.2⟩

theorem Thin.rot {vs ws : List Point} (hs : SimpleContour ⟨vs⟩) (h : vs ~r ws) : Thin vs ws := by
  have hp := toContourSegments_rotated h
  refine ⟨⟨by rw [← h.perm.length_eq]; exact hs.1, h.nodup_iff.mp hs.2.1, fullyNoded_perm hp hs.2.2⟩,
    fun v hv => h.mem_iff.mpr hv, fun ε p => (xorSum_perm hp).symm, (segsPts_perm hp).symm,
    fun X hX => noOverlap_perm (hp.append_right X) hX, ?_⟩
  exact ((C25_orientation ⟨vs⟩ ⟨ws⟩ hs.1 (h.nodup_iff.mp hs.2.1)).1 h).symm

/-- Splitting an edge in the middle. -/
theorem below_split {ε : ℚ} {a v w p : Point} (hv : v ∈ openSeg a w) (haw : a ≠ w) :
    below ε ⟨a, w⟩ p = (below ε ⟨a, v⟩ p ^^ below ε ⟨v, w⟩ p) := by
  have key : ∀ {a w : Point}, a < w → v ∈ openSeg a w → below ε ⟨a, w⟩ p = (below ε ⟨a, v⟩ p ^^ below ε ⟨v, w⟩ p) := by
    intro a w haw hv
    have hvs := openSeg_sub hv
    obtain ⟨t, t0, t1, hvt⟩ := hv
    have hb := ((mem_seg_iff_of_le haw.le).mp hvs).2
    have hav : a ≠ v := by
      rintro rfl
      have hx := congrArg Point.x hvt
      have hy := congrArg Point.y hvt
      simp only [lerp] at hx hy
      have h1 : w.x = a.x := by
        have : t * (w.x - a.x) = 0 := by linarith
        rcases mul_eq_zero.mp this with k | k <;> linarith
      have h2 : w.y = a.y := by
        have : t * (w.y - a.y) = 0 := by linarith
        rcases mul_eq_zero.mp this with k | k <;> linarith
      exact haw.ne (Point.ext' h1.symm h2.symm)
    have hvw : v ≠ w := by
      rintro rfl
      have hx := congrArg Point.x hvt
      have hy := congrArg Point.y hvt
      simp only [lerp] at hx hy
      have h1 : v.x = a.x := by
        have : (1 - t) * (v.x - a.x) = 0 := by linarith
        rcases mul_eq_zero.mp this with k | k <;> linarith
      have h2 : v.y = a.y := by
        have : (1 - t) * (v.y - a.y) = 0 := by linarith
        rcases mul_eq_zero.mp this with k | k <;> linarith
      exact haw.ne (Point.ext' h1.symm h2.symm)
    have L : ∀ {x y : Point}, x < y → lo ⟨x, y⟩ = x ∧ hi ⟨x, y⟩ = y := by
      intro x y h
      unfold lo hi toSortedPair
      simp only
      rw [if_pos (Point.ltB_iff.mpr h)]
      exact ⟨rfl, rfl⟩
    obtain ⟨e1, e2⟩ := L haw
    obtain ⟨e3, e4⟩ := L (lt_of_le_of_ne hb.1 hav)
    obtain ⟨e5, e6⟩ := L (lt_of_le_of_ne hb.2 hvw)
    have hX : Xe ε v = Xe ε a + t * (Xe ε w - Xe ε a) := by rw [hvt, Xe_lerp]
    have c1 : cr a v p = t * cr a w p := by rw [hvt]; unfold cr lerp; ring
    have c2 : cr v w p = (1 - t) * cr a w p := by rw [hvt]; unfold cr lerp; ring
    have s1 : 0 < cr a v p ↔ 0 < cr a w p := by rw [c1]; exact mul_pos_iff_of_pos_left t0
    have s2 : 0 < cr v w p ↔ 0 < cr a w p := by rw [c2]; exact mul_pos_iff_of_pos_left (by linarith)
    unfold below
    rw [e1, e2, e3, e4, e5, e6]
    simp only [s1, s2]
    rcases lt_or_ge (Xe ε a) (Xe ε w) with q | q
    · have q1 : Xe ε a < Xe ε v := by rw [hX]; nlinarith
      have q2 : Xe ε v < Xe ε w := by rw [hX]; nlinarith
      by_cases c : 0 < cr a w p
      · by_cases k1 : Xe ε p < Xe ε v
        · have k2 : Xe ε p < Xe ε w := by linarith
          have k3 : ¬ Xe ε v ≤ Xe ε p := by linarith
          simp [c, k1, k2, k3]
        · have k2 : Xe ε v ≤ Xe ε p := by linarith
          have k3 : Xe ε a ≤ Xe ε p := by linarith
          simp [c, k1, k2, k3]
      · simp [c]
    · have q1 : Xe ε v ≤ Xe ε a := by rw [hX]; nlinarith
      have q2 : Xe ε w ≤ Xe ε v := by rw [hX]; nlinarith
      rw [decide_eq_false (by rintro ⟨k1, k2, _⟩; linarith), decide_eq_false (by rintro ⟨k1, k2, _⟩; linarith),
        decide_eq_false (by rintro ⟨k1, k2, _⟩; linarith)]
      rfl
  rcases lt_or_gt_of_ne haw with h | h
  · exact key h hv
  · have := key h (by rw [openSeg_comm]; exact hv)
    have r : ∀ x y : Point, below ε ⟨x, y⟩ p = below ε ⟨y, x⟩ p := fun x y => below_reverse ε ⟨y, x⟩ p
    rw [r a w, r a v, r v w, this, Bool.xor_comm]

theorem apart_merge {a v w : Point} {t : Segment} (hv : v ∈ seg a w) (h1 : Apart ⟨a, v⟩ t) (h2 : Apart ⟨v, w⟩ t) :
    Apart ⟨a, w⟩ t := by
  have cut : ∀ {p q : Point}, p ∈ seg a v → q ∈ seg v w → v ∈ seg p q := by
    intro p q hp hq
    have hpw : p ∈ seg a w := lerp_mem_seg (start_mem_seg _ _) hv hp
    have hqw : q ∈ seg a w := lerp_mem_seg hv (end_mem_seg _ _) hq
    rcases le_total a w with h | h
    · have b := (mem_seg_iff_of_le h).mp hv
      have bp := ((mem_seg_iff_of_le b.2.1).mp hp).2
      have bq := ((mem_seg_iff_of_le b.2.2).mp hq).2
      rcases eq_or_ne a w with e | e
      · subst e
        have : v = a := le_antisymm b.2.2 b.2.1
        subst this
        rw [show p = v from le_antisymm bp.2 bp.1, show q = v from le_antisymm bq.2 bq.1]
        exact start_mem_seg _ _
      · refine (mem_seg_iff_of_le (bp.2.trans bq.1)).mpr ⟨?_, bp.2, bq.1⟩
        obtain ⟨t1, _, _, rfl⟩ := hpw
        obtain ⟨t2, _, _, rfl⟩ := hqw
        obtain ⟨t3, _, _, rfl⟩ := hv
        unfold cr lerp; ring
    · have b := (mem_seg_iff_of_le h).mp (by rw [seg_comm]; exact hv)
      have bp := ((mem_seg_iff_of_le b.2.2).mp (by rw [seg_comm]; exact hp)).2
      have bq := ((mem_seg_iff_of_le b.2.1).mp (by rw [seg_comm]; exact hq)).2
      rw [seg_comm]
      refine (mem_seg_iff_of_le (bq.2.trans bp.1)).mpr ⟨?_, bq.2, bp.1⟩
      obtain ⟨t1, _, _, rfl⟩ := hpw
      obtain ⟨t2, _, _, rfl⟩ := hqw
      obtain ⟨t3, _, _, rfl⟩ := hv
      unfold cr lerp; ring
  have mid : ∀ {p q : Point}, p ∈ seg a v → q ∈ seg v w → p ∈ segPts t → q ∈ segPts t → p = q := by
    intro p q hp hq tp tq
    have tv : v ∈ segPts t := lerp_mem_seg tp tq (cut hp hq)
    exact (h1 p ⟨hp, tp⟩ v ⟨end_mem_seg _ _, tv⟩).trans (h2 v ⟨start_mem_seg _ _, tv⟩ q ⟨hq, tq⟩)
  rintro p ⟨hp, tp⟩ q ⟨hq, tq⟩
  have hp' : p ∈ seg a v ∪ seg v w := by rw [← seg_split hv]; exact hp
  have hq' : q ∈ seg a v ∪ seg v w := by rw [← seg_split hv]; exact hq
  rcases hp' with hp' | hp' <;> rcases hq' with hq' | hq'
  · exact h1 p ⟨hp', tp⟩ q ⟨hq', tq⟩
  · exact mid hp' hq' tp tq
  · exact (mid hq' hp' tq tp).symm
  · exact h2 p ⟨hp', tp⟩ q ⟨hq', tq⟩

/-- Dropping the first vertex of a simple contour, which lies on the line of its neighbours. -/
theorem thin_drop {v w a : Point} {m : List Point} (hs : SimpleContour ⟨v :: w :: (m ++ [a])⟩) (hc : cr a v w = 0) :
    Thin (v :: w :: (m ++ [a])) (w :: (m ++ [a])) := by
  obtain ⟨h3, hn, hf⟩ := hs
  have hs : SimpleContour ⟨v :: w :: (m ++ [a])⟩ := ⟨h3, hn, hf⟩
  set Q := consecutive (w :: (m ++ [a])) with hQ
  have e1 : toContourSegments (v :: w :: (m ++ [a])) = ⟨v, w⟩ :: (Q ++ [⟨a, v⟩]) := by
    rw [toContourSegments_eq]
    have : v :: w :: (m ++ [a]) ++ [v] = (v :: w :: m) ++ [a, v] := by simp
    rw [this, consecutive_append]
    rfl
  have e2 : toContourSegments (w :: (m ++ [a])) = Q ++ [⟨a, w⟩] := by
    rw [toContourSegments_eq]
    have : w :: (m ++ [a]) ++ [w] = (w :: m) ++ [a, w] := by simp
    rw [this, consecutive_append]
    rfl
  have p1 : (toContourSegments (v :: w :: (m ++ [a]))).Perm (⟨a, v⟩ :: ⟨v, w⟩ :: Q) := by
    rw [e1]
    refine ((List.perm_append_comm (l₁ := Q) (l₂ := [⟨a, v⟩])).cons _).trans ?_
    exact List.Perm.swap _ _ _
  have p2 : (toContourSegments (w :: (m ++ [a]))).Perm (⟨a, w⟩ :: Q) := by
    rw [e2]; exact List.perm_append_comm
  have hf1 : FullyNoded (⟨a, v⟩ :: ⟨v, w⟩ :: Q) := fullyNoded_perm p1 hf
  have nd := List.nodup_cons.mp hn
  have hva : v ≠ a := fun e => nd.1 (by rw [e]; simp)
  have hvw : v ≠ w := fun e => nd.1 (by rw [e]; simp)
  have haw : a ≠ w := fun e => (List.nodup_cons.mp nd.2).1 (by rw [← e]; simp)
  -- the vertex is between
  have hN : Noded ⟨a, v⟩ ⟨v, w⟩ := (List.pairwise_cons.mp hf1.2).1 _ (by simp)
  have hv : v ∈ seg a w := by
    have hc1 : cr a w v = 0 := by rw [cr_swap23]; linarith
    have hc2 : cr v w a = 0 := by unfold cr at hc ⊢; linarith
    rw [mem_seg_iff]
    refine ⟨hc1, ?_⟩
    have A : a ∈ seg v w → False := fun k => by
      rcases (hN.2 a (start_mem_seg _ _) k).2 with q | q
      · exact hva q.symm
      · exact haw q
    have B : w ∈ seg a v → False := fun k => by
      rcases (hN.2 w k (end_mem_seg _ _)).1 with q | q
      · exact haw q.symm
      · exact hvw q.symm
    rcases le_total a v with q1 | q1 <;> rcases le_total v w with q2 | q2
    · exact Or.inl ⟨q1, q2⟩
    · exfalso
      rcases le_total a w with q3 | q3
      · exact B (mem_seg_iff.mpr ⟨hc, Or.inl ⟨q3, q2⟩⟩)
      · exact A (mem_seg_iff.mpr ⟨hc2, Or.inr ⟨q3, q1⟩⟩)
    · exfalso
      rcases le_total a w with q3 | q3
      · exact A (mem_seg_iff.mpr ⟨hc2, Or.inl ⟨q1, q3⟩⟩)
      · exact B (mem_seg_iff.mpr ⟨hc, Or.inr ⟨q2, q3⟩⟩)
    · exact Or.inr ⟨q2, q1⟩
  have hvo : v ∈ openSeg a w := by
    obtain ⟨t, t0, t1, e⟩ := hv
    refine ⟨t, lt_of_le_of_ne t0 fun k => hva ?_, lt_of_le_of_ne t1 fun k => hvw ?_, e⟩
    · rw [e, ← k]; simp [lerp]
    · rw [e, k]; simp [lerp]
  have hend : ∀ t ∈ Q, t.start ≠ v ∧ t.end ≠ v := by
    intro t ht
    have ht' : t ∈ toContourSegments (w :: (m ++ [a])) := by rw [e2]; exact List.mem_append_left _ ht
    refine ⟨fun e => nd.1 ?_, fun e => nd.1 ?_⟩
    · rw [← e, ← contour_starts (w :: (m ++ [a]))]
      exact List.mem_map_of_mem ht'
    · have : t.end ∈ (m ++ [a]) ++ [w] := by
        rw [← contour_ends w (m ++ [a])]
        exact List.mem_map_of_mem ht'
      rw [e] at this
      rw [List.mem_append, List.mem_singleton] at this
      rw [List.mem_cons]
      exact this.symm
  have hm : m ≠ [] := by
    rintro rfl
    have hq : (⟨w, a⟩ : Segment) ∈ Q := by rw [hQ]; simp [consecutive]
    have := (List.pairwise_cons.mp hf1.2).1 ⟨w, a⟩ (by simp [hq])
    rcases (this.2 v (end_mem_seg _ _) (by unfold segPts; rw [seg_comm]; exact hv)).2 with q | q
    · exact hvw q
    · exact hva q
  have pA := List.pairwise_cons.mp hf1.2
  have pB := List.pairwise_cons.mp pA.2
  have hf2 : FullyNoded (⟨a, w⟩ :: Q) := by
    refine ⟨fun s hs => ?_, List.pairwise_cons.mpr ⟨fun t ht => ?_, pB.2⟩⟩
    · rcases List.mem_cons.mp hs with rfl | hs
      · exact haw
      · exact hf1.1 s (by simp [hs])
    · have n1 := pA.1 t (by simp [ht])
      have n2 := pB.1 t ht
      refine ⟨apart_merge hv n1.1 n2.1, fun p hp tp => ?_⟩
      have hp' : p ∈ seg a v ∪ seg v w := by rw [← seg_split hv]; exact hp
      rcases hp' with hp' | hp'
      · obtain ⟨k1, k2⟩ := n1.2 p hp' tp
        refine ⟨?_, k2⟩
        rcases k1 with k1 | k1
        · exact Or.inl k1
        · have k1 : p = v := k1
          rw [k1] at k2
          rcases k2 with k2 | k2
          · exact absurd k2.symm (hend t ht).1
          · exact absurd k2.symm (hend t ht).2
      · obtain ⟨k1, k2⟩ := n2.2 p hp' tp
        refine ⟨?_, k2⟩
        rcases k1 with k1 | k1
        · have k1 : p = v := k1
          rw [k1] at k2
          rcases k2 with k2 | k2
          · exact absurd k2.symm (hend t ht).1
          · exact absurd k2.symm (hend t ht).2
        · exact Or.inr k1
  have simple : SimpleContour ⟨w :: (m ++ [a])⟩ := by
    refine ⟨?_, nd.2, fullyNoded_perm p2.symm hf2⟩
    have := List.length_pos_iff.mpr hm
    simp only [List.length_cons, List.length_append, List.length_nil]
    omega
  have par : ∀ ε p, downParity ε p (toContourSegments (w :: (m ++ [a]))) =
      downParity ε p (toContourSegments (v :: w :: (m ++ [a]))) := by
    intro ε p
    unfold downParity
    rw [xorSum_perm p1, xorSum_perm p2, xorSum, xorSum, xorSum, below_split hvo haw, Bool.xor_assoc]
  refine ⟨simple, fun x hx => List.mem_cons_of_mem _ hx, par, ?_, fun X hX => ?_, ?_⟩
  · rw [segsPts_perm p1, segsPts_perm p2, segsPts_cons, segsPts_cons, segsPts_cons]
    have : segPts ⟨a, w⟩ = segPts ⟨a, v⟩ ∪ segPts ⟨v, w⟩ := seg_split hv
    rw [this, Set.union_assoc]
  · have hX1 := noOverlap_perm (p1.append_right X) hX
    refine noOverlap_perm (p2.append_right X).symm ?_
    have q1 := List.pairwise_cons.mp hX1.2
    have q2 := List.pairwise_cons.mp q1.2
    refine ⟨fun s hs => ?_, List.pairwise_cons.mpr ⟨fun t ht => ?_, q2.2⟩⟩
    · rcases List.mem_cons.mp hs with rfl | hs
      · exact haw
      · exact hX1.1 s (by simp only [List.cons_append, List.mem_cons]; exact Or.inr (Or.inr hs))
    · exact apart_merge hv (q1.1 t (List.mem_cons_of_mem _ ht)) (q2.1 t ht)
  · obtain ⟨ε, hg⟩ := exists_gen (v :: w :: (m ++ [a])).toFinset
    have g1 : Gen ε (· ∈ v :: w :: (m ++ [a])) := fun x hx y hy => hg x (List.mem_toFinset.mpr hx) y (List.mem_toFinset.mpr hy)
    have c1 := contour_parity (c := ⟨v :: w :: (m ++ [a])⟩) hs g1
    have c2 := contour_parity (c := ⟨w :: (m ++ [a])⟩) simple fun x hx y hy =>
      g1 x (List.mem_cons_of_mem _ hx) y (List.mem_cons_of_mem _ hy)
    obtain ⟨t, t0, t1, et⟩ := hvo
    have z1 : lerp a v (1 / 2) ∈ openSeg a v := ⟨1 / 2, by norm_num, by norm_num, rfl⟩
    have z2 : lerp a v (1 / 2) ∈ openSeg a w := by
      refine ⟨t / 2, by linarith, by linarith, ?_⟩
      rw [et]; unfold lerp; simp only [Point.mk.injEq]; constructor <;> ring
    have d1 := c1.2 ⟨a, v⟩ (p1.mem_iff.mpr (by simp)) _ z1
    have d2 := c2.2 ⟨a, w⟩ (p2.mem_iff.mpr (by simp)) _ z2
    have hgu : goesUp ⟨a, v⟩ = goesUp ⟨a, w⟩ := by
      rw [Bool.eq_iff_iff, goesUp_iff (fun k => hva k.symm), goesUp_iff haw]
      rcases (mem_seg_iff.mp hv).2 with k | k
      · exact ⟨fun q => lt_of_lt_of_le q k.2, fun _ => lt_of_le_of_ne k.1 hva.symm⟩
      · exact ⟨fun q => absurd k.2 (not_le.mpr q), fun q => absurd (k.1.trans k.2) (not_le.mpr q)⟩
    have hp : downParity ε (lerp a v (1 / 2)) (⟨w :: (m ++ [a])⟩ : Contour).segments =
      downParity ε (lerp a v (1 / 2)) (⟨v :: w :: (m ++ [a])⟩ : Contour).segments := par ε _
    rw [hp, ← hgu, d1] at d2
    have n1 := c1.1
    have n2 := c2.1
    revert d2 n1 n2
    generalize (⟨v :: w :: (m ++ [a])⟩ : Contour).orientation = o1
    generalize (⟨w :: (m ++ [a])⟩ : Contour).orientation = o2
    cases o1 <;> cases o2 <;> simp

theorem rot_append {α : Type} (A B : List α) : (A ++ B) ~r (B ++ A) := by
  exact ⟨A.length, by rw [List.rotate_append_length_eq]⟩

/-- Dropping a vertex anywhere. -/
theorem thin_mid {A B : List Point} {v : Point} (hs : SimpleContour ⟨A ++ v :: B⟩)
    (hc : ∀ a w, (B ++ A).getLast? = some a → (B ++ A).head? = some w → cr a v w = 0) : Thin (A ++ v :: B) (A ++ B) := by
  have r1 : (A ++ v :: B) ~r (v :: (B ++ A)) := by
    have := rot_append A (v :: B)
    rw [List.cons_append] at this
    exact this
  have t1 := Thin.rot hs r1
  have h3 : 2 ≤ (B ++ A).length := by
    have := t1.simple.1
    simp only [List.length_cons] at this
    omega
  obtain ⟨w, m, a, e⟩ : ∃ w m a, B ++ A = w :: (m ++ [a]) := by
    cases hBA : B ++ A with
    | nil => rw [hBA] at h3; simp at h3
    | cons w l =>
      rcases List.eq_nil_or_concat' l with rfl | ⟨m, a, rfl⟩
      · rw [hBA] at h3; simp at h3
      · exact ⟨w, m, a, rfl⟩
  have hc' := hc a w (by rw [e, ← List.cons_append, List.getLast?_append]; simp) (by rw [e]; rfl)
  rw [e] at t1
  have t2 := thin_drop t1.simple hc'
  have t3 := t1.trans t2
  rw [← e] at t3
  exact t3.trans (Thin.rot t3.simple (rot_append B A))

theorem thin_loop (f : Point) : ∀ (rest A : List Point) (last : Point), (A ++ [last]).head? = some f →
    SimpleContour ⟨A ++ last :: rest⟩ → Thin (A ++ last :: rest) (A ++ last :: shrinkLoop f last rest)
  | [], A, last, _, hs => by rw [shrinkLoop]; exact Thin.refl hs
  | [v], A, last, hh, hs => by
    rw [shrinkLoop]
    by_cases hc : orient last v f = .collinear
    · rw [if_neg (by rw [not_not]; exact hc)]
      have e : A ++ [last, v] = (A ++ [last]) ++ [v] := by simp
      rw [e] at hs ⊢
      have := thin_mid (A := A ++ [last]) (B := []) hs (fun a w ha hw => by
        rw [List.nil_append] at ha hw
        rw [hh, Option.some.injEq] at hw
        simp only [List.getLast?_append, List.getLast?_singleton, Option.some_or, Option.some.injEq] at ha
        rw [← ha, ← hw]; exact orient_collinear.mp hc)
      rw [List.append_nil] at this
      exact this
    · rw [if_pos hc]; exact Thin.refl hs
  | v :: w :: rest, A, last, hh, hs => by
    rw [shrinkLoop]
    by_cases hc : orient last v w = .collinear
    · rw [if_neg (by rw [not_not]; exact hc)]
      have e : A ++ last :: v :: w :: rest = (A ++ [last]) ++ v :: (w :: rest) := by simp
      have e' : A ++ last :: w :: rest = (A ++ [last]) ++ (w :: rest) := by simp
      rw [e] at hs ⊢
      have := thin_mid (A := A ++ [last]) (B := w :: rest) hs (fun a w' ha hw => by
        simp only [List.cons_append, List.head?_cons, Option.some.injEq] at hw
        rw [← List.append_assoc, List.getLast?_append] at ha
        simp only [List.getLast?_singleton, Option.some_or, Option.some.injEq] at ha
        rw [← ha, ← hw]; exact orient_collinear.mp hc)
      rw [← e'] at this
      exact this.trans (thin_loop f (w :: rest) A last hh this.simple)
    · rw [if_pos hc]
      have e : A ++ last :: v :: w :: rest = (A ++ [last]) ++ v :: (w :: rest) := by simp
      have e' : A ++ last :: v :: shrinkLoop f v (w :: rest) = (A ++ [last]) ++ v :: shrinkLoop f v (w :: rest) := by simp
      rw [e] at hs ⊢
      rw [e']
      refine thin_loop f (w :: rest) (A ++ [last]) v ?_ hs
      rw [List.head?_append, hh]; rfl

/-- The contour without collinear vertices. -/
theorem thin_shrink {vs : List Point} (hs : SimpleContour ⟨vs⟩) : Thin vs (shrinkCollinearVertices vs) := by
  cases vs with
  | nil => exact absurd hs.1 (by simp)
  | cons v l =>
    have := thin_loop v l [] v rfl hs
    exact this

end Rene.Sweep
