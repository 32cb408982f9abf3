import Verif.Lemmas.Sweep.Detect

/-! The comparison of sweep line keys and the order of events on the sweep line. -/

namespace Rene.Sweep
open Rene Spec

variable {c : Ctx}

section
variable {i j : ℕ} {s u m : ℚ}

theorem aboveR_not_coll (h : AboveR c i j m) : ¬ c.Coll i j := by
  intro hc
  rcases h with h | ⟨_, h⟩
  · rw [hc.f_eq] at h; exact lt_irrefl _ h
  · rw [hc.1] at h; exact lt_irrefl _ h

theorem aboveR_asymm (h : AboveR c i j m) : ¬ AboveR c j i m := by
  rintro (k | ⟨k, k'⟩) <;> rcases h with h | ⟨h, h'⟩ <;> linarith

theorem aboveR_total (h : ¬ c.Coll i j) : AboveR c i j m ∨ AboveR c j i m := by
  rcases lt_trichotomy (c.f i m) (c.f j m) with g | g | g
  · left; left; exact g
  · rcases lt_trichotomy (c.K i) (c.K j) with k | k | k
    · left; right; exact ⟨g, k⟩
    · exfalso; apply h; refine ⟨k, ?_⟩; unfold Ctx.f at g; rw [k] at g; linarith
    · right; right; exact ⟨g.symm, k⟩
  · right; left; exact g

theorem slope_of (h1 : c.f i s - c.f j s < c.f i u - c.f j u) (hsu : s < u) : c.K j < c.K i := by
  unfold Ctx.f at h1
  by_contra g
  push Not at g
  have := mul_nonneg (by linarith : 0 ≤ c.K j - c.K i) (by linarith : 0 ≤ u - s)
  linarith

theorem diff_mono (hk : c.K j < c.K i) (hsu : s < u) : c.f i s - c.f j s < c.f i u - c.f j u := by
  unfold Ctx.f
  have := mul_pos (by linarith : 0 < c.K i - c.K j) (by linarith : 0 < u - s)
  linarith

theorem p1 (h1 : c.f i s < c.f j s) (h2 : c.f i u < c.f j u) (hs : s ≤ m) (hu : m ≤ u) : AboveR c i j m :=
  Or.inl (aff_lt h1 h2 hs hu)

theorem p2 (h1 : c.f i s = c.f j s) (h2 : c.f i u < c.f j u) (hs : s ≤ m) (hsu : s < u) :
    AboveR c i j m := by
  have hk : c.K i < c.K j := slope_of (s := s) (u := u) (by linarith) hsu
  rcases eq_or_lt_of_le hs with g | g
  · subst g; exact Or.inr ⟨h1, hk⟩
  · left; have := diff_mono hk g; linarith

theorem p3 (h1 : c.f i s < c.f j s) (h2 : c.f i u = c.f j u) (hs : s ≤ m) (hu : m < u) :
    AboveR c i j m := by
  have hk : c.K j < c.K i := slope_of (s := s) (u := u) (by linarith) (by linarith)
  left; have := diff_mono hk hu; linarith

end

/-- The comparison of keys of events which are on the sweep line at the same time. -/
theorem sweepKeyLt_iff {i j : ℕ} {l r l' r' : Point} {x y : Bool} (hl : c.On i l) (hr : c.On i r)
    (hl' : c.On j l') (hr' : c.On j r') (h : c.X l < c.X r) (h' : c.X l' < c.X r')
    (h1 : c.X l ≤ c.X r') (h2 : c.X l' ≤ c.X r) (hxy : c.Coll i j → x ≠ y) :
    sweepKeyLt l r l' r' x y = true ↔ AboveR c i j (max (c.X l) (c.X l')) ∨ (c.Coll i j ∧ x = true ∧ y = false) := by
  obtain ⟨s1, s2, s3⟩ := Ctx.orient_on (q := l') hl hr h
  obtain ⟨e1, e2, e3⟩ := Ctx.orient_on (q := r') hl hr h
  obtain ⟨bs1, bs2, bs3⟩ := Ctx.orient_on (q := l) hl' hr' h'
  obtain ⟨be1, be2, be3⟩ := Ctx.orient_on (q := r) hl' hr' h'
  have hyl : l.y = c.f i (c.X l) := hl
  have hyr : r.y = c.f i (c.X r) := hr
  have hyl' : l'.y = c.f j (c.X l') := hl'
  have hyr' : r'.y = c.f j (c.X r') := hr'
  rw [hyl'] at s1 s2 s3
  rw [hyr'] at e1 e2 e3
  rw [hyl] at bs1 bs2 bs3
  rw [hyr] at be1 be2 be3
  have m1 : c.X l ≤ max (c.X l) (c.X l') := le_max_left _ _
  have m2 : c.X l' ≤ max (c.X l) (c.X l') := le_max_right _ _
  have m3 : max (c.X l) (c.X l') ≤ c.X r := max_le h.le h2
  have m4 : max (c.X l) (c.X l') ≤ c.X r' := max_le h1 h'.le
  have m5 : max (c.X l) (c.X l') = c.X l ∨ max (c.X l) (c.X l') = c.X l' := max_choice _ _
  generalize max (c.X l) (c.X l') = m at *
  -- reduce to deciding the side
  have yes : ¬ c.Coll i j → AboveR c i j m → ∀ {b : Prop} [Decidable b], b →
      (decide b = true ↔ AboveR c i j m ∨ (c.Coll i j ∧ x = true ∧ y = false)) := by
    intro _ ha b _ hb; simp [ha, hb]
  have no : ¬ c.Coll i j → AboveR c j i m → ∀ {b : Prop} [Decidable b], ¬ b →
      (decide b = true ↔ AboveR c i j m ∨ (c.Coll i j ∧ x = true ∧ y = false)) := by
    intro hc ha b _ hb
    have := aboveR_asymm ha
    simp [this, hb, hc]
  unfold sweepKeyLt
  simp only
  by_cases h12 : orient l r l' = orient l r r'
  · rw [if_pos h12]
    by_cases hcol : orient l r l' = .collinear
    · have hc : c.Coll i j :=
        Ctx.coll_of_two h'.ne (s3.mp hcol).symm (e3.mp (h12 ▸ hcol)).symm
      rw [if_neg (by simpa using hcol), if_pos (hxy hc)]
      have : ¬ AboveR c i j m := fun k => aboveR_not_coll k hc
      have hxy := hxy hc
      simp only [this, hc, true_and, false_or]
      cases x <;> cases y <;> simp_all
    · rw [if_pos hcol]
      have hc : ¬ c.Coll i j := fun hc => hcol (s3.mpr (hc.f_eq _).symm)
      rcases ho : orient l r l' with _ | _ | _
      · exact no hc (p1 (s2.mp ho) (e2.mp (h12 ▸ ho)) m2 m4) (by simp)
      · exact absurd ho hcol
      · exact yes hc (p1 (s1.mp ho) (e1.mp (h12 ▸ ho)) m2 m4) rfl
  · rw [if_neg h12]
    have hc : ¬ c.Coll i j := fun hc =>
      h12 ((s3.mpr (hc.f_eq _).symm).trans (e3.mpr (hc.f_eq _).symm).symm)
    by_cases h34 : orient l' r' l = orient l' r' r
    · rw [if_pos h34]
      rcases ho : orient l' r' l with _ | _ | _
      · exact yes hc (p1 (bs2.mp ho) (be2.mp (h34 ▸ ho)) m1 m3) rfl
      · exact absurd (Ctx.coll_of_two h.ne (bs3.mp ho) (be3.mp (h34 ▸ ho))) hc
      · exact no hc (p1 (bs1.mp ho) (be1.mp (h34 ▸ ho)) m1 m3) (by simp)
    · rw [if_neg h34]
      by_cases h5 : orient l r l' = .collinear
      · rw [if_pos h5]
        rcases ho : orient l r r' with _ | _ | _
        · exact no hc (p2 (s3.mp h5) (e2.mp ho) m2 h') (by simp)
        · exact absurd (h5.trans ho.symm) h12
        · exact yes hc (p2 (s3.mp h5).symm (e1.mp ho) m2 h') rfl
      · rw [if_neg h5]
        by_cases h6 : orient l' r' l = .collinear
        · rw [if_pos h6]
          rcases ho : orient l' r' r with _ | _ | _
          · exact yes hc (p2 (bs3.mp h6) (be2.mp ho) m1 h) rfl
          · exact absurd (h6.trans ho.symm) h34
          · exact no hc (p2 (bs3.mp h6).symm (be1.mp ho) m1 h) (by simp)
        · rw [if_neg h6]
          by_cases h7 : orient l' r' r = .collinear
          · rw [if_pos h7]
            have mr : m < c.X r := by
              refine lt_of_le_of_ne m3 fun e => ?_
              rcases m5 with k | k
              · linarith
              · apply h5; rw [s3]
                have := be3.mp h7
                rw [← k, e]; exact this.symm
            rcases ho : orient l' r' l with _ | _ | _
            · exact yes hc (p3 (bs2.mp ho) (be3.mp h7) m1 mr) rfl
            · exact absurd ho h6
            · exact no hc (p3 (bs1.mp ho) (be3.mp h7).symm m1 mr) (by simp)
          · rw [if_neg h7]
            have mr : m ≠ c.X r' ∨ orient l r r' ≠ .collinear := by
              by_contra e
              push Not at e
              rcases m5 with k | k
              · apply h6; rw [bs3]
                rw [← k, e.1]; exact (e3.mp e.2).symm
              · linarith [e.1]
            rcases ho : orient l r l' with _ | _ | _
            · refine no hc ?_ (by simp)
              have a1 := s2.mp ho
              rcases hr2 : orient l r r' with _ | _ | _
              · exact absurd (ho.trans hr2.symm) h12
              · exact p3 a1 (e3.mp hr2) m2 (lt_of_le_of_ne m4 (mr.resolve_right (by simp [hr2])))
              · have a2 := e1.mp hr2
                have hk : c.K i < c.K j := slope_of (s := c.X l') (u := c.X r') (by linarith) h'
                have hd := diff_mono hk h
                left
                rcases m5 with k | k
                · rw [k]
                  rcases o3 : orient l' r' l with _ | _ | _
                  · have b1 := bs2.mp o3
                    rcases o4 : orient l' r' r with _ | _ | _
                    · exact absurd (o3.trans o4.symm) h34
                    · exact absurd o4 h7
                    · have := be1.mp o4; linarith
                  · exact absurd o3 h6
                  · exact bs1.mp o3
                · rw [k]; exact a1
            · exact absurd ho h5
            · refine yes hc ?_ rfl
              have a1 := s1.mp ho
              rcases hr2 : orient l r r' with _ | _ | _
              · have a2 := e2.mp hr2
                have hk : c.K j < c.K i := slope_of (s := c.X l') (u := c.X r') (by linarith) h'
                have hd := diff_mono hk h
                left
                rcases m5 with k | k
                · rw [k]
                  rcases o3 : orient l' r' l with _ | _ | _
                  · exact bs2.mp o3
                  · exact absurd o3 h6
                  · have b1 := bs1.mp o3
                    rcases o4 : orient l' r' r with _ | _ | _
                    · have := be2.mp o4; linarith
                    · exact absurd o4 h7
                    · exact absurd (o3.trans o4.symm) h34
                · rw [k]; exact a1
              · exact p3 a1 (e3.mp hr2).symm m2 (lt_of_le_of_ne m4 (mr.resolve_right (by simp [hr2])))
              · exact absurd (ho.trans hr2.symm) h12

/-- Pieces that are on the sweep line at the same time. -/
theorem sweepLt_iff {S : Lin} (w : Wf c S) {a b : ℕ} (ha : IsL S a) (hb : IsL S b)
    (h1 : lx c S a ≤ rx c S b) (h2 : lx c S b ≤ rx c S a) (hop : CollE c S a b → ¬ SameOp c S a b) :
    S.sweepLt a b = true ↔ SLt c S a b := by
  have := sweepKeyLt_iff (x := S.leftFirst a) (y := S.leftFirst b) (w.onL a ha) (w.onR a ha)
    (w.onL b hb) (w.onR b hb) (w.lr a ha) (w.lr b hb) h1 h2 (by
      intro hc e
      apply hop hc
      unfold Lin.leftFirst at e
      rw [decide_eq_decide, w.fc] at e
      exact e)
  unfold Lin.sweepLt
  rw [this]
  unfold SLt CollE Lin.leftFirst lx
  rw [w.fc, decide_eq_true_eq, decide_eq_false_iff_not]

theorem sweepLt_self (S : Lin) (a : ℕ) : S.sweepLt a a = false := by
  unfold Lin.sweepLt sweepKeyLt
  simp only
  have e1 : orient (S.start a) (S.end a) (S.start a) = .collinear := by
    rw [orient_collinear]; unfold cr; ring
  have e2 : orient (S.start a) (S.end a) (S.end a) = .collinear := by
    rw [orient_collinear]; unfold cr; ring
  simp [e1, e2]

theorem SLt.asymm {S : Lin} {a b : ℕ} (h : SLt c S a b) : ¬ SLt c S b a := by
  unfold SLt at *
  rw [max_comm (lx c S b)]
  rcases h with h | ⟨h1, h2, h3⟩
  · rintro (k | ⟨k, _⟩)
    · exact aboveR_asymm h k
    · exact aboveR_not_coll h k.symm
  · rintro (k | ⟨_, k, _⟩)
    · exact aboveR_not_coll k h1.symm
    · exact h3 k

theorem SLt.total {S : Lin} {a b : ℕ} (hop : CollE c S a b → ¬ SameOp c S a b) : SLt c S a b ∨ SLt c S b a := by
  unfold SLt
  rw [max_comm (lx c S b)]
  by_cases hc : CollE c S a b
  · have := hop hc
    unfold SameOp at this
    by_cases k : S.sid a < c.F
    · left; right; exact ⟨hc, k, fun k' => this ⟨fun _ => k', fun _ => k⟩⟩
    · right; right; exact ⟨hc.symm, by by_contra k'; exact this ⟨fun z => absurd z k, fun z => absurd z k'⟩, k⟩
  · rcases aboveR_total (c := c) (m := max (lx c S a) (lx c S b)) hc with k | k
    · left; left; exact k
    · right; left; exact k

/-- Neighbours which have been tested do not cross. -/
theorem adj_le {S : Lin} {a b : ℕ} (h : SLt c S a b) (hk : Checked c S a b) {t : ℚ} (h1 : lx c S a ≤ t)
    (h2 : t ≤ rx c S a) (h3 : lx c S b ≤ t) (h4 : t ≤ rx c S b) :
    c.f (S.sid a) t ≤ c.f (S.sid b) t := by
  rcases h with h | ⟨h, _⟩
  · by_contra g
    push Not at g
    have hc : ¬ CollE c S a b := aboveR_not_coll h
    -- a crossing strictly between the common start and `t`
    have hm : max (lx c S a) (lx c S b) < t := by
      refine lt_of_le_of_ne (max_le h1 h3) fun e => ?_
      rw [e] at h
      rcases h with h | ⟨h, _⟩ <;> linarith
    have m1 : lx c S a ≤ max (lx c S a) (lx c S b) := le_max_left _ _
    have m2 : lx c S b ≤ max (lx c S a) (lx c S b) := le_max_right _ _
    have m5 : max (lx c S a) (lx c S b) = lx c S a ∨ max (lx c S a) (lx c S b) = lx c S b := max_choice _ _
    generalize max (lx c S a) (lx c S b) = m at *
    rcases h with h | ⟨h, hkk⟩
    · have hne : c.K (S.sid b) ≠ c.K (S.sid a) := by
        intro e; unfold Ctx.f at h g; rw [e] at h g; linarith
      have hd : c.K (S.sid b) - c.K (S.sid a) ≠ 0 := fun e => hne (by linarith)
      have z : c.f (S.sid a) ((c.C (S.sid a) - c.C (S.sid b)) / (c.K (S.sid b) - c.K (S.sid a))) =
          c.f (S.sid b) ((c.C (S.sid a) - c.C (S.sid b)) / (c.K (S.sid b) - c.K (S.sid a))) := by
        unfold Ctx.f
        field_simp
        ring
      generalize (c.C (S.sid a) - c.C (S.sid b)) / (c.K (S.sid b) - c.K (S.sid a)) = z0 at z
      obtain ⟨k1, k2⟩ := aff_cross hc z h g hm
      have := hk.2 hc z0 z (by linarith) (by linarith) (by linarith) (by linarith)
      exact this.1 ⟨by linarith, by linarith⟩
    · have := diff_mono hkk hm
      linarith
  · rw [h.f_eq]

end Rene.Sweep
