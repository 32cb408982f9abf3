import Verif.Lemmas.Sweep.Parity
import Verif.Spec.Shapes
import Verif.Props.Contours

/-! Directions of the edges of a simple contour and parities. -/

namespace Rene.Sweep
open Rene Spec

/-- The segment goes from the lesser end point to the greater one. -/
def goesUp (s : Segment) : Bool := !s.start.gtB s.end

theorem goesUp_iff {s : Segment} (h : s.start ≠ s.end) : goesUp s = true ↔ s.start < s.end := by
  unfold goesUp
  rw [Bool.not_eq_true', ← Bool.not_eq_true, Point.gtB_iff, not_lt]
  exact ⟨fun k => lt_of_le_of_ne k h, fun k => k.le⟩

/-- The shear keeps the order of the points. -/
def Gen (ε : ℚ) (V : Point → Prop) : Prop := ∀ u, V u → ∀ v, V v → u < v → Xe ε u < Xe ε v

theorem Gen.lt_iff {ε : ℚ} {V : Point → Prop} (h : Gen ε V) {u v : Point} (hu : V u) (hv : V v) :
    u < v ↔ Xe ε u < Xe ε v := by
  refine ⟨h u hu v hv, fun k => ?_⟩
  rcases lt_trichotomy u v with z | rfl | z
  · exact z
  · exact absurd k (lt_irrefl _)
  · exact absurd (h v hv u hu z) k.asymm

theorem xorSum_perm {g : Segment → Bool} {l l' : List Segment} (h : l.Perm l') : xorSum g l = xorSum g l' := by
  induction h with
  | nil => rfl
  | cons x _ ih => simp only [xorSum, ih]
  | swap x y l => simp only [xorSum]; rw [Bool.xor_left_comm]
  | trans _ _ h1 h2 => exact h1.trans h2

theorem noded_symm {s t : Segment} (h : Noded s t) : Noded t s := by
  refine ⟨?_, fun p h1 h2 => (h.2 p h2 h1).symm⟩
  have := h.1
  unfold Apart at *
  rw [Set.inter_comm]; exact this

theorem noded_of_ne {l : List Segment} (h : l.Pairwise Noded) {s t : Segment} (hs : s ∈ l) (ht : t ∈ l)
    (hne : s ≠ t) : Noded s t := by
  haveI : Std.Symm Noded := ⟨fun _ _ => noded_symm⟩
  exact h.forall hs ht hne

theorem consecutive_starts : ∀ (l : List Point) (z : Point), (consecutive (l ++ [z])).map Segment.start = l := by
  intro l z
  induction l with
  | nil => rfl
  | cons a l ih =>
    cases l with
    | nil => rfl
    | cons b l =>
      have e : consecutive (a :: b :: l ++ [z]) = ⟨a, b⟩ :: consecutive (b :: l ++ [z]) := rfl
      rw [e, List.map_cons, ih]

theorem consecutive_ends : ∀ (l : List Point) (a : Point), (consecutive (a :: l)).map Segment.end = l := by
  intro l
  induction l with
  | nil => intro a; rfl
  | cons b l ih =>
    intro a
    have e : consecutive (a :: b :: l) = ⟨a, b⟩ :: consecutive (b :: l) := rfl
    rw [e, List.map_cons, ih]

theorem contour_starts (vs : List Point) : (toContourSegments vs).map Segment.start = vs := by
  cases vs with
  | nil => rfl
  | cons v vs => rw [toContourSegments_eq]; exact consecutive_starts (v :: vs) v

theorem contour_ends (v : Point) (vs : List Point) : (toContourSegments (v :: vs)).map Segment.end = vs ++ [v] := by
  rw [toContourSegments_eq]; exact consecutive_ends (vs ++ [v]) v

section
variable {ε : ℚ} {vs : List Point}

theorem contour_inj_start (hn : vs.Nodup) {s t : Segment} (hs : s ∈ toContourSegments vs)
    (ht : t ∈ toContourSegments vs) (h : s.start = t.start) : s = t := by
  have : ((toContourSegments vs).map Segment.start).Nodup := by rw [contour_starts]; exact hn
  exact List.inj_on_of_nodup_map this hs ht h

theorem contour_inj_end (hn : vs.Nodup) {s t : Segment} (hs : s ∈ toContourSegments vs)
    (ht : t ∈ toContourSegments vs) (h : s.end = t.end) : s = t := by
  have : ((toContourSegments vs).map Segment.end).Nodup := by
    cases vs with
    | nil => exact List.nodup_nil
    | cons v vs =>
      rw [contour_ends]
      rw [List.nodup_cons] at hn
      rw [List.nodup_append]
      refine ⟨hn.2, by simp, fun a ha b hb => ?_⟩
      rw [List.mem_singleton] at hb
      subst hb
      rintro rfl
      exact hn.1 ha
  exact List.inj_on_of_nodup_map this hs ht h

theorem contour_nodup (hn : vs.Nodup) : (toContourSegments vs).Nodup := by
  refine List.Nodup.of_map Segment.start ?_
  rw [contour_starts]; exact hn

theorem contour_mem {s : Segment} (hs : s ∈ toContourSegments vs) : s.start ∈ vs ∧ s.end ∈ vs := by
  constructor
  · have := List.mem_map_of_mem (f := Segment.start) hs
    rwa [contour_starts] at this
  · cases vs with
    | nil => exact absurd hs (by simp [toContourSegments])
    | cons v vs =>
      have := List.mem_map_of_mem (f := Segment.end) hs
      rw [contour_ends] at this
      simp only [List.mem_append, List.mem_singleton] at this
      rw [List.mem_cons]
      tauto

theorem lo_hi_mem {s : Segment} (hs : s ∈ toContourSegments vs) : lo s ∈ vs ∧ hi s ∈ vs := by
  obtain ⟨h1, h2⟩ := contour_mem hs
  rcases lo_hi_or s with ⟨e1, e2⟩ | ⟨e1, e2⟩ <;> rw [e1, e2]
  · exact ⟨h1, h2⟩
  · exact ⟨h2, h1⟩

theorem contour_Xe (hg : Gen ε (· ∈ vs)) (hf : FullyNoded (toContourSegments vs)) {s : Segment}
    (hs : s ∈ toContourSegments vs) : Xe ε (lo s) < Xe ε (hi s) :=
  hg _ (lo_hi_mem hs).1 _ (lo_hi_mem hs).2 (lo_lt_hi (hf.1 s hs))

/-- Two edges at a vertex. -/
theorem contour_vertex (hn : vs.Nodup) (hf : FullyNoded (toContourSegments vs)) (hg : Gen ε (· ∈ vs))
    {e e' : Segment} (he : e ∈ toContourSegments vs) (he' : e' ∈ toContourSegments vs) (hw : e.end = e'.start) :
    (∀ z ∈ openSeg e.start e.end, (downParity ε z (toContourSegments vs) ^^
      downParity ε e.end (toContourSegments vs)) = under ε e.end e.start e'.end) ∧
    (∀ z ∈ openSeg e'.start e'.end, (downParity ε z (toContourSegments vs) ^^
      downParity ε e.end (toContourSegments vs)) = under ε e.end e'.end e.start) := by
  have hne : e ≠ e' := by
    rintro rfl
    exact hf.1 e he hw.symm
  have hd := hf.1 e he
  have hd' := hf.1 e' he'
  have sp : ∀ s : Segment, (lo s = s.end ∧ hi s = s.start) ∨ (lo s = s.start ∧ hi s = s.end) :=
    fun s => (lo_hi_or s).symm
  have nw : ∀ s ∈ toContourSegments vs, s ≠ e → s ≠ e' → e.end ∉ segPts s := by
    intro s hs h1 h2 hm
    rcases (noded_of_ne hf.2 hs he h1).2 e.end hm (end_mem_seg _ _) with ⟨k | k, _⟩
    · exact h2 (contour_inj_start hn hs he' (k.symm.trans hw))
    · exact h1 (contour_inj_end hn hs he k.symm)
  constructor
  · rintro z ⟨t, t0, t1, rfl⟩
    rw [lerp_swap]
    refine vertex_step (contour_xor · vs) (contour_nodup hn) (fun s hs => contour_Xe hg hf hs) he' (sp e) ?_ he hne
      (by linarith) (by linarith) (fun s hs h1 h2 => ?_)
    · rw [hw]; exact (sp e').symm
    · rw [Set.disjoint_left]
      intro x hx hx'
      have hxe : x ∈ segPts e := by
        have k := lerp_mem_seg (a := e.end) (b := e.start) (c := lerp e.end e.start (1 - t)) (d := e.end)
          ⟨1 - t, by linarith, by linarith, rfl⟩ (start_mem_seg _ _) hx'
        show x ∈ seg e.start e.end
        rw [seg_comm]; exact k
      rcases (noded_of_ne hf.2 hs he h1).2 x hx hxe with ⟨_, k | k⟩
      · rw [k, ← lerp_swap] at hx'
        obtain ⟨r, r0, r1, er⟩ := hx'
        have : lerp (lerp e.start e.end t) e.end r = lerp e.start e.end (t + r * (1 - t)) := by
          rw [Point.eq_iff]; unfold lerp; simp only; constructor <;> ring
        rw [this] at er
        have := lerp_inj hd ((lerp_zero e.start e.end).trans er)
        nlinarith
      · rw [k] at hx; exact nw s hs h1 h2 hx
  · rintro z ⟨t, t0, t1, rfl⟩
    rw [hw]
    refine vertex_step (contour_xor · vs) (contour_nodup hn) (fun s hs => contour_Xe hg hf hs) he (sp e').symm ?_ he' hne.symm
      (by linarith) (by linarith) (fun s hs h1 h2 => ?_)
    · rw [← hw]; exact sp e
    · rw [Set.disjoint_left]
      intro x hx hx'
      have hxe : x ∈ segPts e' := lerp_mem_seg ⟨t, t0.le, t1.le, rfl⟩ (start_mem_seg _ _) hx'
      rcases (noded_of_ne hf.2 hs he' h1).2 x hx hxe with ⟨_, k | k⟩
      · rw [k, ← hw] at hx; exact nw s hs h2 h1 hx
      · rw [k] at hx'
        obtain ⟨r, r0, r1, er⟩ := hx'
        have : lerp (lerp e'.start e'.end t) e'.start r = lerp e'.start e'.end (t * (1 - r)) := by
          rw [Point.eq_iff]; unfold lerp; simp only; constructor <;> ring
        rw [this] at er
        have := lerp_inj hd' ((lerp_one e'.start e'.end).trans er)
        nlinarith

/-- Two edges at a vertex on the same side of it are not collinear. -/
theorem contour_turn (hf : FullyNoded (toContourSegments vs)) {e e' : Segment} (he : e ∈ toContourSegments vs)
    (he' : e' ∈ toContourSegments vs) (hw : e.end = e'.start)
    (h : (e.start < e.end ∧ e'.end < e.end) ∨ (e.end < e.start ∧ e.end < e'.end)) :
    cr e.start e.end e'.end ≠ 0 := by
  intro hc
  have hne : e ≠ e' := by
    rintro rfl
    exact hf.1 e he hw.symm
  have hap := (noded_of_ne hf.2 he he' hne).1
  have w1 : e.end ∈ segPts e ∩ segPts e' := ⟨end_mem_seg _ _, by rw [hw]; exact start_mem_seg _ _⟩
  have hc' : cr e'.start e'.end e.start = 0 := by rw [← hw, cr_rot]; exact hc
  rcases le_total e.start e'.end with k | k
  · rcases h with ⟨h1, h2⟩ | ⟨h1, h2⟩
    · have := hap _ w1 e'.end ⟨mem_seg_iff.mpr ⟨hc, Or.inl ⟨k, h2.le⟩⟩, end_mem_seg _ _⟩
      rw [← this] at h2; exact lt_irrefl _ h2
    · have := hap _ w1 e.start ⟨start_mem_seg _ _, mem_seg_iff.mpr ⟨hc', Or.inl ⟨by rw [← hw]; exact h1.le, k⟩⟩⟩
      rw [← this] at h1; exact lt_irrefl _ h1
  · rcases h with ⟨h1, h2⟩ | ⟨h1, h2⟩
    · have := hap _ w1 e.start ⟨start_mem_seg _ _, mem_seg_iff.mpr ⟨hc', Or.inr ⟨k, by rw [← hw]; exact h1.le⟩⟩⟩
      rw [← this] at h1; exact lt_irrefl _ h1
    · have := hap _ w1 e'.end ⟨mem_seg_iff.mpr ⟨hc, Or.inr ⟨h2.le, k⟩⟩, end_mem_seg _ _⟩
      rw [← this] at h2; exact lt_irrefl _ h2

/-- The direction and the parity below change together. -/
theorem contour_next (hn : vs.Nodup) (hf : FullyNoded (toContourSegments vs)) (hg : Gen ε (· ∈ vs))
    {e e' : Segment} (he : e ∈ toContourSegments vs) (he' : e' ∈ toContourSegments vs) (hw : e.end = e'.start)
    {z z' : Point} (hz : z ∈ openSeg e.start e.end) (hz' : z' ∈ openSeg e'.start e'.end) :
    (goesUp e ^^ downParity ε z (toContourSegments vs)) = (goesUp e' ^^ downParity ε z' (toContourSegments vs)) := by
  obtain ⟨h1, h2⟩ := contour_vertex hn hf hg he he' hw
  have h1 := h1 z hz
  have h2 := h2 z' hz'
  have g1 := goesUp_iff (hf.1 e he)
  have g2 := goesUp_iff (hf.1 e' he')
  rw [← hw] at g2
  obtain ⟨mu, mw⟩ := contour_mem he
  have mv := (contour_mem he').2
  have ne1 := hf.1 e he
  have ne2 := hf.1 e' he'
  rw [← hw] at ne2
  have turn := contour_turn hf he he' hw
  have sw : cr e'.end e.end e.start = - cr e.start e.end e'.end := by unfold cr; ring
  have u1 := under_iff (ε := ε) (w := e.end) (u := e.start) (v := e'.end)
  have u2 := under_iff (ε := ε) (w := e.end) (u := e'.end) (v := e.start)
  rw [sw] at u2
  rw [← hg.lt_iff mu mw, ← hg.lt_iff mv mw, ← hg.lt_iff mw mu, ← hg.lt_iff mw mv] at u1 u2
  have key : (goesUp e ^^ goesUp e') = (under ε e.end e.start e'.end ^^ under ε e.end e'.end e.start) := by
    rcases lt_or_gt_of_ne ne1 with k1 | k1 <;> rcases lt_or_gt_of_ne ne2 with k2 | k2
    · have a1 : under ε e.end e.start e'.end = false := bool_false fun h => by
        rcases u1.mp h with ⟨_, k, _⟩ | ⟨k, _⟩
        · exact lt_asymm k k2
        · exact lt_asymm k k1
      have a2 : under ε e.end e'.end e.start = false := bool_false fun h => by
        rcases u2.mp h with ⟨k, _⟩ | ⟨_, k, _⟩
        · exact lt_asymm k k2
        · exact lt_asymm k k1
      rw [a1, a2, g1.mpr k1, g2.mpr k2]; rfl
    · have b2 : goesUp e' = false := bool_false fun h => lt_asymm (g2.mp h) k2
      rw [g1.mpr k1, b2]
      rcases lt_or_gt_of_ne (turn (Or.inl ⟨k1, k2⟩)) with c | c
      · have a1 := u1.mpr (Or.inl ⟨k1, k2, c⟩)
        have a2 : under ε e.end e'.end e.start = false := bool_false fun h => by
          rcases u2.mp h with ⟨_, _, k⟩ | ⟨k, _⟩
          · linarith
          · exact lt_asymm k k2
        rw [a1, a2]
      · have a1 := u2.mpr (Or.inl ⟨k2, k1, by linarith⟩)
        have a2 : under ε e.end e.start e'.end = false := bool_false fun h => by
          rcases u1.mp h with ⟨_, _, k⟩ | ⟨k, _⟩
          · linarith
          · exact lt_asymm k k1
        rw [a1, a2]; rfl
    · have b2 : goesUp e = false := bool_false fun h => lt_asymm (g1.mp h) k1
      rw [g2.mpr k2, b2]
      rcases lt_or_gt_of_ne (turn (Or.inr ⟨k1, k2⟩)) with c | c
      · have a1 := u2.mpr (Or.inr ⟨k2, k1, by linarith⟩)
        have a2 : under ε e.end e.start e'.end = false := bool_false fun h => by
          rcases u1.mp h with ⟨k, _⟩ | ⟨_, _, k⟩
          · exact lt_asymm k k1
          · linarith
        rw [a1, a2]
      · have a1 := u1.mpr (Or.inr ⟨k1, k2, c⟩)
        have a2 : under ε e.end e'.end e.start = false := bool_false fun h => by
          rcases u2.mp h with ⟨k, _⟩ | ⟨_, _, k⟩
          · exact lt_asymm k k2
          · linarith
        rw [a1, a2]; rfl
    · have b1 : goesUp e = false := bool_false fun h => lt_asymm (g1.mp h) k1
      have b2 : goesUp e' = false := bool_false fun h => lt_asymm (g2.mp h) k2
      have a1 : under ε e.end e.start e'.end = false := bool_false fun h => by
        rcases u1.mp h with ⟨k, _⟩ | ⟨_, k, _⟩
        · exact lt_asymm k k1
        · exact lt_asymm k k2
      have a2 : under ε e.end e'.end e.start = false := bool_false fun h => by
        rcases u2.mp h with ⟨_, k, _⟩ | ⟨k, _⟩
        · exact lt_asymm k k1
        · exact lt_asymm k k2
      rw [a1, a2, b1, b2]
  rw [← h1, ← h2] at key
  revert key
  cases goesUp e <;> cases goesUp e' <;> cases downParity ε z (toContourSegments vs) <;>
    cases downParity ε z' (toContourSegments vs) <;> cases downParity ε e.end (toContourSegments vs) <;> decide

end

/-- A property passed along consecutive edges. -/
theorem consecutive_all {P : Segment → Prop} : ∀ (l : List Point) (a b : Point), P ⟨a, b⟩ →
    (∀ e ∈ consecutive (a :: b :: l), ∀ e' ∈ consecutive (a :: b :: l), e.end = e'.start → P e → P e') →
    ∀ e ∈ consecutive (a :: b :: l), P e := by
  intro l
  induction l with
  | nil =>
    intro a b h _ e he
    have : e = ⟨a, b⟩ := by simpa [consecutive] using he
    rw [this]; exact h
  | cons d l ih =>
    intro a b h H e he
    have e1 : consecutive (a :: b :: d :: l) = ⟨a, b⟩ :: consecutive (b :: d :: l) := rfl
    have e2 : consecutive (b :: d :: l) = ⟨b, d⟩ :: consecutive (d :: l) := rfl
    rw [e1] at he H
    rcases List.mem_cons.mp he with rfl | he
    · exact h
    · refine ih b d (H ⟨a, b⟩ List.mem_cons_self ⟨b, d⟩ ?_ rfl h)
        (fun s hs s' hs' => H s (List.mem_cons_of_mem _ hs) s' (List.mem_cons_of_mem _ hs')) e he
      rw [e2]; simp

/-- The edges of a simple contour: the inside is to the left for counterclockwise ones. -/
theorem contour_parity {ε : ℚ} {c : Contour} (hs : SimpleContour c) (hg : Gen ε (· ∈ c.vertices)) :
    c.orientation ≠ .collinear ∧
    ∀ e ∈ c.segments, ∀ z ∈ openSeg e.start e.end,
      (goesUp e ^^ downParity ε z c.segments) = decide (c.orientation = .counterclockwise) := by
  obtain ⟨h3, hn, hf⟩ := hs
  obtain ⟨A, m, B, ev, hm, eo⟩ := orientation_split' h3
  have hrot : c.vertices ~r m :: (B ++ A) := by rw [ev]; exact rot_swap m A B
  have hperm := toContourSegments_rotated hrot
  have hlen : (m :: (B ++ A)).length = c.vertices.length := hrot.perm.length_eq.symm
  have hn' : (m :: (B ++ A)).Nodup := hrot.nodup_iff.mp hn
  have hm' : ∀ p ∈ m :: (B ++ A), m ≤ p := fun p hp => hm p (by rw [← ev]; exact hrot.mem_iff.mpr hp)
  have hg' : Gen ε (· ∈ m :: (B ++ A)) := fun u hu v hv => hg u (hrot.mem_iff.mpr hu) v (hrot.mem_iff.mpr hv)
  have hf' : FullyNoded (toContourSegments (m :: (B ++ A))) := by
    refine ⟨fun s hs => hf.1 s (hperm.mem_iff.mpr hs), ?_⟩
    exact (hperm.pairwise_iff (fun h => noded_symm h)).mp hf.2
  rw [eo]
  have hdp : ∀ z, downParity ε z c.segments = downParity ε z (toContourSegments (m :: (B ++ A))) :=
    fun z => xorSum_perm hperm
  have hmem : ∀ e, e ∈ c.segments ↔ e ∈ toContourSegments (m :: (B ++ A)) := fun e => hperm.mem_iff
  simp only [hdp, hmem]
  clear hdp hmem hperm
  generalize hC : B ++ A = C at *
  rw [List.length_cons] at hlen
  obtain ⟨c0, C', rfl⟩ : ∃ c0 C', C = c0 :: C' := by
    cases C with
    | nil => simp at hlen; omega
    | cons a l => exact ⟨a, l, rfl⟩
  obtain ⟨D, z', hD⟩ : ∃ D z', c0 :: C' = D ++ [z'] :=
    ⟨(c0 :: C').dropLast, (c0 :: C').getLast (by simp), (List.dropLast_append_getLast (by simp)).symm⟩
  -- first and last edge
  have hfirst : (⟨m, c0⟩ : Segment) ∈ toContourSegments (m :: c0 :: C') := by
    rw [toContourSegments_eq]
    show _ ∈ (⟨m, c0⟩ : Segment) :: consecutive (c0 :: C' ++ [m])
    exact List.mem_cons_self
  have hlast : (⟨z', m⟩ : Segment) ∈ toContourSegments (m :: c0 :: C') := by
    rw [toContourSegments_eq, hD]
    have : m :: (D ++ [z']) ++ [m] = (m :: D) ++ [z', m] := by simp
    rw [this, consecutive_append]
    simp
  have hturn : turnAt m (c0 :: C') = orient z' m c0 := by
    unfold turnAt
    rw [hD]
    congr 1
    · simp
    · rw [← hD]; rfl
  have hmc : m < c0 := lt_of_le_of_ne (hm' c0 (by simp)) (by
    rintro rfl; rw [List.nodup_cons] at hn'; exact hn'.1 List.mem_cons_self)
  have hzm : z' ∈ m :: c0 :: C' := by rw [hD]; simp
  have hmz : m < z' := lt_of_le_of_ne (hm' z' hzm) (by
    rintro rfl; rw [List.nodup_cons] at hn'; apply hn'.1; rw [hD]; simp)
  have hcr := contour_turn hf' hlast hfirst rfl (Or.inr ⟨hmz, hmc⟩)
  simp only at hcr
  have hdm : downParity ε m (toContourSegments (m :: c0 :: C')) = false := by
    refine xorSum_false fun s hs => bool_false fun h => ?_
    obtain ⟨k1, _, k3⟩ := below_iff.mp h
    obtain ⟨l1, l2⟩ := lo_hi_mem hs
    have : lo s = m := by
      refine le_antisymm (not_lt.mp fun z => ?_) (hm' _ l1)
      have := hg' m (by simp) (lo s) l1 z
      linarith
    rw [this, cr_self1] at k3
    exact lt_irrefl _ k3
  refine ⟨by rw [hturn, ne_eq, orient_collinear]; exact hcr, ?_⟩
  have hbase : ∀ z ∈ openSeg m c0, (goesUp ⟨m, c0⟩ ^^ downParity ε z (toContourSegments (m :: c0 :: C'))) =
      decide (turnAt m (c0 :: C') = .counterclockwise) := by
    intro z hz
    have := (contour_vertex hn' hf' hg' hlast hfirst rfl).2 z hz
    simp only at this
    rw [hdm, Bool.xor_false] at this
    rw [this, (goesUp_iff (s := ⟨m, c0⟩) hmc.ne).mpr hmc, Bool.true_xor, hturn]
    refine bool_eq_of_iff ?_
    rw [decide_eq_true_eq, orient_ccw, Bool.not_eq_true', ← Bool.not_eq_true, under_iff]
    have sw : cr c0 m z' = - cr z' m c0 := by unfold cr; ring
    rw [sw]
    have x1 := hg' m (by simp) c0 (by simp) hmc
    have x2 := hg' m (by simp) z' hzm hmz
    constructor
    · intro k
      by_contra k'
      exact k (Or.inr ⟨x1, x2, by
        have := lt_of_le_of_ne (not_lt.mp k') hcr
        linarith⟩)
    · rintro k (⟨k1, _⟩ | ⟨_, _, k1⟩) <;> linarith
  have hne : ∀ e ∈ toContourSegments (m :: c0 :: C'), lerp e.start e.end (1/2) ∈ openSeg e.start e.end :=
    fun e _ => ⟨1/2, by norm_num, by norm_num, rfl⟩
  intro e he
  have hall := consecutive_all (P := fun e => ∀ z ∈ openSeg e.start e.end,
    (goesUp e ^^ downParity ε z (toContourSegments (m :: c0 :: C'))) =
      decide (turnAt m (c0 :: C') = .counterclockwise)) (C' ++ [m]) m c0 hbase
  have eq : consecutive (m :: c0 :: (C' ++ [m])) = toContourSegments (m :: c0 :: C') := by
    rw [toContourSegments_eq]; rfl
  rw [eq] at hall
  refine hall (fun s hs s' hs' hse hP z hz => ?_) e he
  rw [← hP _ (hne s hs)]
  exact (contour_next hn' hf' hg' hs hs' hse (hne s hs) hz).symm

end Rene.Sweep
