import Verif.Lemmas.Sweep.Build
import Verif.Lemmas.Region

/-! Parity of the number of edges below a point, after a shear. -/

namespace Rene.Sweep
open Rene Spec

/-- Sheared abscissa. -/
def Xe (ε : ℚ) (p : Point) : ℚ := p.x + ε * p.y

/-- Rotation after the shear: directions down become directions to the right. -/
def phi (ε : ℚ) (p : Point) : Point := ⟨-p.y, Xe ε p⟩

theorem cr_phi (ε : ℚ) (a b c : Point) : cr (phi ε a) (phi ε b) (phi ε c) = cr a b c := by
  unfold cr phi Xe; simp only; ring

theorem phi_lerp (ε : ℚ) (a b : Point) (t : ℚ) : lerp (phi ε a) (phi ε b) t = phi ε (lerp a b t) := by
  unfold lerp phi Xe
  rw [Point.eq_iff]
  simp only
  constructor <;> ring

theorem phi_inj {ε : ℚ} {a b : Point} (h : phi ε a = phi ε b) : a = b := by
  unfold phi Xe at h
  rw [Point.eq_iff] at h ⊢
  simp only at h
  have h1 : a.y = b.y := by linarith [h.1]
  refine ⟨?_, h1⟩
  have := h.2
  rw [h1] at this
  linarith

theorem disjoint_phi {ε : ℚ} {a b p q : Point} (h : Disjoint (seg a b) (seg p q)) :
    Disjoint (seg (phi ε a) (phi ε b)) (seg (phi ε p) (phi ε q)) := by
  rw [Set.disjoint_left] at *
  rintro x ⟨t, h0, h1, rfl⟩ ⟨t', h0', h1', e⟩
  rw [phi_lerp, phi_lerp] at e
  exact h ⟨t, h0, h1, rfl⟩ ⟨t', h0', h1', phi_inj e⟩

theorem Xe_lerp (ε : ℚ) (a b : Point) (t : ℚ) : Xe ε (lerp a b t) = Xe ε a + t * (Xe ε b - Xe ε a) := by
  unfold Xe lerp; simp only; ring

/-- The segment passes strictly below the point. -/
def below (ε : ℚ) (s : Segment) (p : Point) : Bool :=
  decide (Xe ε (lo s) ≤ Xe ε p ∧ Xe ε p < Xe ε (hi s) ∧ 0 < cr (lo s) (hi s) p)

theorem below_iff {ε : ℚ} {s : Segment} {p : Point} : below ε s p = true ↔
    Xe ε (lo s) ≤ Xe ε p ∧ Xe ε p < Xe ε (hi s) ∧ 0 < cr (lo s) (hi s) p := by
  unfold below; rw [decide_eq_true_eq]

theorem below_eq {ε : ℚ} {s : Segment} (h : Xe ε (lo s) ≤ Xe ε (hi s)) (p : Point) :
    below ε s p = crossesRay (phi ε (lo s)) (phi ε (hi s)) (phi ε p) := by
  rw [Bool.eq_iff_iff, below_iff, crossesRay_of_le h, cr_phi]
  rfl

/-- Parity of the number of segments passing strictly below the point. -/
def downParity (ε : ℚ) (p : Point) (l : List Segment) : Bool := xorSum (fun s => below ε s p) l

/-- The point is in the strip below `pq`. -/
def strip (ε : ℚ) (p q v : Point) : Bool := decide (Xe ε p < Xe ε v ∧ Xe ε v ≤ Xe ε q ∧ cr p q v < 0)

theorem strip_iff {ε : ℚ} {p q v : Point} : strip ε p q v = true ↔
    Xe ε p < Xe ε v ∧ Xe ε v ≤ Xe ε q ∧ cr p q v < 0 := by unfold strip; rw [decide_eq_true_eq]

theorem strip_eq (ε : ℚ) (p q v : Point) : strip ε p q v = inStrip (phi ε p) (phi ε q) (phi ε v) := by
  rw [Bool.eq_iff_iff, strip_iff]
  unfold inStrip
  rw [decide_eq_true_eq, cr_phi]
  rfl

theorem lo_hi_or (s : Segment) : (lo s = s.start ∧ hi s = s.end) ∨ (lo s = s.end ∧ hi s = s.start) := by
  rcases lo_hi s with ⟨h1, h2, _⟩ | ⟨h1, h2, _⟩
  · exact Or.inl ⟨h1, h2⟩
  · exact Or.inr ⟨h1, h2⟩

/-- Moving along a path which misses the segment. -/
theorem jump_down {ε : ℚ} {s : Segment} {p q : Point} (hpq : Xe ε p ≤ Xe ε q) (hs : Xe ε (lo s) ≤ Xe ε (hi s))
    (hd : Disjoint (segPts s) (seg p q)) :
    (below ε s p ^^ below ε s q) = (strip ε p q s.start ^^ strip ε p q s.end) := by
  rw [segPts_eq] at hd
  rw [below_eq hs, below_eq hs, jump_aux hpq hs (disjoint_phi hd), ← strip_eq, ← strip_eq]
  rcases lo_hi_or s with ⟨h1, h2⟩ | ⟨h1, h2⟩
  · rw [h1, h2]
  · rw [h1, h2, Bool.xor_comm]

theorem xorSum_xor (g h : Segment → Bool) (l : List Segment) :
    xorSum (fun s => g s ^^ h s) l = (xorSum g l ^^ xorSum h l) := by
  induction l with
  | nil => rfl
  | cons s l ih =>
    simp only [xorSum, ih]
    cases g s <;> cases h s <;> cases xorSum g l <;> cases xorSum h l <;> rfl

theorem xorSum_false {g : Segment → Bool} {l : List Segment} (h : ∀ s ∈ l, g s = false) : xorSum g l = false := by
  induction l with
  | nil => rfl
  | cons s l ih =>
    simp only [xorSum]
    rw [h s List.mem_cons_self, ih fun t ht => h t (List.mem_cons_of_mem _ ht)]
    rfl

/-- Two functions differing at one element only. -/
theorem xorSum_at {g h : Segment → Bool} {l : List Segment} (hn : l.Nodup) {b : Segment} (hb : b ∈ l)
    (H : ∀ s ∈ l, s ≠ b → g s = h s) : (xorSum g l ^^ xorSum h l) = (g b ^^ h b) := by
  induction l with
  | nil => simp at hb
  | cons s l ih =>
    rw [List.nodup_cons] at hn
    simp only [xorSum]
    rcases List.mem_cons.mp hb with rfl | hb
    · rw [xorSum_congr (g := g) (h := h) (l := l) fun t ht => H t (List.mem_cons_of_mem _ ht) (by
        rintro rfl; exact hn.1 ht)]
      cases g b <;> cases h b <;> cases xorSum h l <;> rfl
    · have hsb : s ≠ b := by rintro rfl; exact hn.1 hb
      rw [H s List.mem_cons_self hsb, ← ih hn.2 hb fun t ht => H t (List.mem_cons_of_mem _ ht)]
      cases h s <;> cases xorSum g l <;> cases xorSum h l <;> rfl

theorem downParity_append (ε : ℚ) (p : Point) (l l' : List Segment) :
    downParity ε p (l ++ l') = (downParity ε p l ^^ downParity ε p l') := xorSum_append _ _ _

/-- At the common end `w` of `uw` and `vw`: the second is on the same side of `w` and below the first. -/
def under (ε : ℚ) (w u v : Point) : Bool :=
  decide ((Xe ε u < Xe ε w ∧ Xe ε v < Xe ε w ∧ cr u w v < 0) ∨ (Xe ε w < Xe ε u ∧ Xe ε w < Xe ε v ∧ 0 < cr u w v))

theorem under_iff {ε : ℚ} {w u v : Point} : under ε w u v = true ↔
    (Xe ε u < Xe ε w ∧ Xe ε v < Xe ε w ∧ cr u w v < 0) ∨ (Xe ε w < Xe ε u ∧ Xe ε w < Xe ε v ∧ 0 < cr u w v) := by
  unfold under; rw [decide_eq_true_eq]

theorem bool_eq_of_iff {a b : Bool} (h : a = true ↔ b = true) : a = b := Bool.eq_iff_iff.mpr h

theorem bool_false {a : Bool} (h : ¬ a = true) : a = false := Bool.eq_false_iff.mpr h

theorem below_end_left {ε : ℚ} {b : Segment} {w u v : Point} {t : ℚ} (t0 : 0 < t) (t1 : t < 1)
    (hu : Xe ε u < Xe ε w) (hb : (lo b = w ∧ hi b = v) ∨ (lo b = v ∧ hi b = w)) (hbX : Xe ε (lo b) < Xe ε (hi b)) :
    (below ε b (lerp w u t) ^^ below ε b w) =
      ((strip ε (lerp w u t) w w ^^ strip ε (lerp w u t) w v) ^^ under ε w u v) := by
  have hz : Xe ε (lerp w u t) < Xe ε w := by rw [Xe_lerp]; nlinarith
  have bw : below ε b w = false := by
    refine bool_false fun h => ?_
    have := (below_iff.mp h).2.2
    rcases hb with ⟨e1, e2⟩ | ⟨e1, e2⟩ <;> rw [e1, e2] at this
    · rw [cr_self1] at this; exact lt_irrefl _ this
    · rw [cr_self2] at this; exact lt_irrefl _ this
  have sw : strip ε (lerp w u t) w w = false := by
    refine bool_false fun h => ?_
    have := (strip_iff.mp h).2.2
    rw [cr_self2] at this; exact lt_irrefl _ this
  have c1 : cr (lerp w u t) w v = t * cr u w v := by unfold cr lerp; ring
  rw [bw, sw, Bool.xor_false, Bool.false_xor]
  rcases hb with ⟨e1, e2⟩ | ⟨e1, e2⟩ <;> rw [e1, e2] at hbX
  · -- to the right
    have h1 : below ε b (lerp w u t) = false := by
      refine bool_false fun h => ?_
      have := (below_iff.mp h).1
      rw [e1] at this; linarith
    have h2 : strip ε (lerp w u t) w v = false := by
      refine bool_false fun h => ?_
      have := (strip_iff.mp h).2.1
      linarith
    have h3 : under ε w u v = false := by
      refine bool_false fun h => ?_
      rcases under_iff.mp h with ⟨_, k, _⟩ | ⟨k, _⟩ <;> linarith
    rw [h1, h2, h3]; rfl
  · have h3 : under ε w u v = decide (cr u w v < 0) := by
      refine bool_eq_of_iff ?_
      rw [under_iff, decide_eq_true_eq]
      constructor
      · rintro (⟨_, _, k⟩ | ⟨k, _⟩)
        · exact k
        · linarith
      · intro k; exact Or.inl ⟨hu, hbX, k⟩
    have c2 : cr v w (lerp w u t) = - (t * cr u w v) := by unfold cr lerp; ring
    by_cases hv : Xe ε v ≤ Xe ε (lerp w u t)
    · have h2 : strip ε (lerp w u t) w v = false := by
        refine bool_false fun h => ?_
        have := (strip_iff.mp h).1
        linarith
      rw [h2, h3, Bool.false_xor]
      refine bool_eq_of_iff ?_
      rw [below_iff, e1, e2, decide_eq_true_eq, c2]
      constructor
      · rintro ⟨_, _, k⟩
        by_contra k'
        have := mul_nonneg t0.le (not_lt.mp k')
        linarith
      · intro k
        have := mul_pos_of_neg_of_neg k (neg_lt_zero.mpr t0)
        exact ⟨hv, hz, by linarith⟩
    · have h1 : below ε b (lerp w u t) = false := by
        refine bool_false fun h => ?_
        have := (below_iff.mp h).1
        rw [e1] at this; exact hv this
      have h2 : strip ε (lerp w u t) w v = decide (cr u w v < 0) := by
        refine bool_eq_of_iff ?_
        rw [strip_iff, decide_eq_true_eq, c1]
        constructor
        · rintro ⟨_, _, k⟩
          by_contra k'
          have := mul_nonneg t0.le (not_lt.mp k')
          linarith
        · intro k
          exact ⟨not_le.mp hv, hbX.le, mul_neg_of_pos_of_neg t0 k⟩
      rw [h1, h2, h3]
      simp

theorem below_end_right {ε : ℚ} {b : Segment} {w u v : Point} {t : ℚ} (t0 : 0 < t) (t1 : t < 1)
    (hu : Xe ε w < Xe ε u) (hb : (lo b = w ∧ hi b = v) ∨ (lo b = v ∧ hi b = w)) (hbX : Xe ε (lo b) < Xe ε (hi b)) :
    (below ε b (lerp w u t) ^^ below ε b w) =
      ((strip ε w (lerp w u t) w ^^ strip ε w (lerp w u t) v) ^^ under ε w u v) := by
  have hz : Xe ε w < Xe ε (lerp w u t) := by rw [Xe_lerp]; nlinarith
  have bw : below ε b w = false := by
    refine bool_false fun h => ?_
    have := (below_iff.mp h).2.2
    rcases hb with ⟨e1, e2⟩ | ⟨e1, e2⟩ <;> rw [e1, e2] at this
    · rw [cr_self1] at this; exact lt_irrefl _ this
    · rw [cr_self2] at this; exact lt_irrefl _ this
  have sw : strip ε w (lerp w u t) w = false := by
    refine bool_false fun h => ?_
    have := (strip_iff.mp h).2.2
    rw [cr_self1] at this; exact lt_irrefl _ this
  have c1 : cr w (lerp w u t) v = - (t * cr u w v) := by unfold cr lerp; ring
  rw [bw, sw, Bool.xor_false, Bool.false_xor]
  rcases hb with ⟨e1, e2⟩ | ⟨e1, e2⟩ <;> rw [e1, e2] at hbX
  · have h3 : under ε w u v = decide (0 < cr u w v) := by
      refine bool_eq_of_iff ?_
      rw [under_iff, decide_eq_true_eq]
      constructor
      · rintro (⟨k, _⟩ | ⟨_, _, k⟩)
        · linarith
        · exact k
      · intro k; exact Or.inr ⟨hu, hbX, k⟩
    have c2 : cr w v (lerp w u t) = t * cr u w v := by unfold cr lerp; ring
    by_cases hv : Xe ε v ≤ Xe ε (lerp w u t)
    · have h1 : below ε b (lerp w u t) = false := by
        refine bool_false fun h => ?_
        have := (below_iff.mp h).2.1
        rw [e2] at this; linarith
      have h2 : strip ε w (lerp w u t) v = decide (0 < cr u w v) := by
        refine bool_eq_of_iff ?_
        rw [strip_iff, decide_eq_true_eq, c1]
        constructor
        · rintro ⟨_, _, k⟩
          by_contra k'
          have := mul_nonneg t0.le (sub_nonneg.mpr (not_lt.mp k'))
          nlinarith
        · intro k
          exact ⟨hbX, hv, by have := mul_pos t0 k; linarith⟩
      rw [h1, h2, h3]; simp
    · have h2 : strip ε w (lerp w u t) v = false := by
        refine bool_false fun h => ?_
        have := (strip_iff.mp h).2.1
        exact hv this
      rw [h2, h3, Bool.false_xor]
      refine bool_eq_of_iff ?_
      rw [below_iff, e1, e2, decide_eq_true_eq, c2]
      constructor
      · rintro ⟨_, _, k⟩
        by_contra k'
        nlinarith
      · intro k
        exact ⟨hz.le, not_le.mp hv, mul_pos t0 k⟩
  · have h1 : below ε b (lerp w u t) = false := by
      refine bool_false fun h => ?_
      have := (below_iff.mp h).2.1
      rw [e2] at this; linarith
    have h2 : strip ε w (lerp w u t) v = false := by
      refine bool_false fun h => ?_
      have := (strip_iff.mp h).1
      linarith
    have h3 : under ε w u v = false := by
      refine bool_false fun h => ?_
      rcases under_iff.mp h with ⟨k, _⟩ | ⟨_, k, _⟩ <;> linarith
    rw [h1, h2, h3]; rfl

/-- Parities at a vertex `w` of a closed chain and at a point of an edge `uw`. -/
theorem vertex_step {ε : ℚ} {l : List Segment}
    (hcl : ∀ f : Point → Bool, xorSum (fun e => f e.start ^^ f e.end) l = false) (hn : l.Nodup)
    (hX : ∀ s ∈ l, Xe ε (lo s) < Xe ε (hi s)) {a b : Segment} (hb : b ∈ l) {w u v : Point}
    (ha' : (lo a = w ∧ hi a = u) ∨ (lo a = u ∧ hi a = w)) (hb' : (lo b = w ∧ hi b = v) ∨ (lo b = v ∧ hi b = w))
    (ha : a ∈ l) (hab : a ≠ b) {t : ℚ} (t0 : 0 < t) (t1 : t < 1)
    (hdz : ∀ s ∈ l, s ≠ a → s ≠ b → Disjoint (segPts s) (seg (lerp w u t) w)) :
    (downParity ε (lerp w u t) l ^^ downParity ε w l) = under ε w u v := by
  have hz : lerp w u t ∈ seg w u := ⟨t, t0.le, t1.le, rfl⟩
  have onA : ∀ p ∈ seg w u, below ε a p = false := by
    intro p hp
    refine bool_false fun h => ?_
    have := (below_iff.mp h).2.2
    have c := (mem_seg_iff.mp hp).1
    rcases ha' with ⟨e1, e2⟩ | ⟨e1, e2⟩ <;> rw [e1, e2] at this
    · linarith
    · rw [cr_swap12] at this; linarith
  have e1 : (downParity ε (lerp w u t) l ^^ downParity ε w l) =
      xorSum (fun s => below ε s (lerp w u t) ^^ below ε s w) l := (xorSum_xor _ _ _).symm
  rw [e1]
  have hne : Xe ε u ≠ Xe ε w := by
    have := hX a ha
    rcases ha' with ⟨e1, e2⟩ | ⟨e1, e2⟩ <;> rw [e1, e2] at this
    · exact this.ne'
    · exact this.ne
  have fin : ∀ (f : Point → Bool), (∀ s ∈ l, s ≠ a → s ≠ b → (below ε s (lerp w u t) ^^ below ε s w) = (f s.start ^^ f s.end)) →
      f w = false → f u = false → (below ε b (lerp w u t) ^^ below ε b w) = ((f w ^^ f v) ^^ under ε w u v) →
      xorSum (fun s => below ε s (lerp w u t) ^^ below ε s w) l = under ε w u v := by
    intro f h1 h2 h3 h4
    have := xorSum_at (g := fun s => below ε s (lerp w u t) ^^ below ε s w) (h := fun s => f s.start ^^ f s.end) hn hb
      (fun s hs hsb => by
        by_cases hsa : s = a
        · subst hsa
          show (below ε s (lerp w u t) ^^ below ε s w) = (f s.start ^^ f s.end)
          rw [onA _ hz, onA _ (start_mem_seg w u)]
          have : f s.start = false ∧ f s.end = false := by
            rcases lo_hi_or s with ⟨k1, k2⟩ | ⟨k1, k2⟩ <;> rcases ha' with ⟨k3, k4⟩ | ⟨k3, k4⟩ <;>
              rw [k1] at k3 <;> rw [k2] at k4 <;> rw [k3, k4] <;> exact ⟨by assumption, by assumption⟩
          rw [this.1, this.2]
        · exact h1 s hs hsa hsb)
    rw [hcl f, Bool.xor_false] at this
    rw [this]
    show ((below ε b (lerp w u t) ^^ below ε b w) ^^ (f b.start ^^ f b.end)) = _
    rw [h4]
    have : (f b.start ^^ f b.end) = (f w ^^ f v) := by
      rcases lo_hi_or b with ⟨k1, k2⟩ | ⟨k1, k2⟩ <;> rcases hb' with ⟨k3, k4⟩ | ⟨k3, k4⟩ <;>
        rw [k1] at k3 <;> rw [k2] at k4 <;> rw [k3, k4]
      · rw [Bool.xor_comm]
      · rw [Bool.xor_comm]
    rw [this]
    cases f w <;> cases f v <;> cases under ε w u v <;> rfl
  rcases lt_or_gt_of_ne hne with k | k
  · refine fin (strip ε (lerp w u t) w) (fun s hs h1 h2 => ?_) ?_ ?_ ?_
    · refine jump_down ?_ (hX s hs).le (hdz s hs h1 h2)
      rw [Xe_lerp]; nlinarith
    · refine bool_false fun h => ?_
      have := (strip_iff.mp h).2.2
      rw [cr_self2] at this; exact lt_irrefl _ this
    · refine bool_false fun h => ?_
      have := (strip_iff.mp h).2.2
      have c : cr (lerp w u t) w u = 0 := by unfold cr lerp; ring
      rw [c] at this; exact lt_irrefl _ this
    · exact below_end_left t0 t1 k hb' (hX b hb)
  · refine fin (strip ε w (lerp w u t)) (fun s hs h1 h2 => ?_) ?_ ?_ ?_
    · rw [Bool.xor_comm]
      refine jump_down ?_ (hX s hs).le (by rw [seg_comm]; exact hdz s hs h1 h2)
      rw [Xe_lerp]; nlinarith
    · refine bool_false fun h => ?_
      have := (strip_iff.mp h).2.2
      rw [cr_self1] at this; exact lt_irrefl _ this
    · refine bool_false fun h => ?_
      have := (strip_iff.mp h).2.2
      have c : cr w (lerp w u t) u = 0 := by unfold cr lerp; ring
      rw [c] at this; exact lt_irrefl _ this
    · exact below_end_right t0 t1 k hb' (hX b hb)

end Rene.Sweep
