import Verif.Lemmas.BO.Base

/-! What the intersection test of the validity sweep does, by cases. -/

namespace Rene.BO
open Rene Spec Sweep

variable {c : Ctx}

/-- The outcomes of the intersection test. -/
inductive Outcome (c : Ctx) (R : Reg) (b a : ℕ) : Reg → Prop
  | none (h1 : CollE c R.lin b a → rx c R.lin b ≤ lx c R.lin a ∨ rx c R.lin a ≤ lx c R.lin b)
      (h2 : ¬ CollE c R.lin b a → ∀ t, c.f (R.lin.sid b) t = c.f (R.lin.sid a) t → lx c R.lin b ≤ t →
        t ≤ rx c R.lin b → lx c R.lin a ≤ t → t ≤ rx c R.lin a → ¬ Int c R.lin b t ∧ ¬ Int c R.lin a t) : Outcome c R b a R
  | mid {m : Point} (hc : ¬ CollE c R.lin b a) (hm : m ∈ c.P) (ob : c.On (R.lin.sid b) m) (oa : c.On (R.lin.sid a) m)
      (l : lx c R.lin a ≤ c.X m) (r : c.X m ≤ rx c R.lin a) (hb : Int c R.lin b (c.X m))
      (na : ¬ Int c R.lin a (c.X m)) : Outcome c R b a (R.divideByMidpoint b m)
  | above {m : Point} (hc : ¬ CollE c R.lin b a) (hm : m ∈ c.P) (ob : c.On (R.lin.sid b) m) (oa : c.On (R.lin.sid a) m)
      (l : lx c R.lin b ≤ c.X m) (r : c.X m ≤ rx c R.lin b) (ha : Int c R.lin a (c.X m))
      (nb : ¬ Int c R.lin b (c.X m)) : Outcome c R b a (R.divideCheckingAbove a m)
  | both {m : Point} (hc : ¬ CollE c R.lin b a) (hm : m ∈ c.P) (ob : c.On (R.lin.sid b) m) (oa : c.On (R.lin.sid a) m)
      (hb : Int c R.lin b (c.X m)) (ha : Int c R.lin a (c.X m)) :
      Outcome c R b a ((R.divideByMidpoint b m).divideCheckingAbove a m)
  | longer (hc : CollE c R.lin b a) (hs : R.lin.start a = R.lin.start b) : Outcome c R b a (R.divideLonger b a)
  | same {u v : ℕ} (huv : (u = a ∧ v = b) ∨ (u = b ∧ v = a)) (hc : CollE c R.lin b a) (hu : Int c R.lin u (lx c R.lin v))
      (he : R.lin.end u = R.lin.end v) : Outcome c R b a (R.divideMerging u (R.lin.start v) v)
  | inside {u v : ℕ} (huv : (u = a ∧ v = b) ∨ (u = b ∧ v = a)) (hc : CollE c R.lin b a) (hu : Int c R.lin u (lx c R.lin v))
      (hu' : Int c R.lin u (rx c R.lin v)) : Outcome c R b a (R.divideByMidSegment u v (R.lin.start v) (R.lin.end v))
  | overlap {u v : ℕ} (huv : (u = a ∧ v = b) ∨ (u = b ∧ v = a)) (hc : CollE c R.lin b a) (hu : Int c R.lin u (lx c R.lin v))
      (hv : Int c R.lin v (rx c R.lin u)) : Outcome c R b a (R.divideOverlapping u v (R.lin.start v) (R.lin.end u))

variable {R : Reg} {b a : ℕ}

theorem detect_cases (gd : c.Good0) (w : WfB c R.lin) (hb : IsL R.lin b) (ha : IsL R.lin a) :
    Outcome c R b a (R.detect b a) := by
  have key : ∀ X, X = R.detect b a → Outcome c R b a X := by
    intro X hX
    unfold Reg.detect at hX
    simp only at hX
    have S0 : R.start a = R.lin.start a := rfl
    have S1 : R.end a = R.lin.end a := rfl
    have S2 : R.start b = R.lin.start b := rfl
    have S3 : R.end b = R.lin.end b := rfl
    rw [S0, S1, S2, S3] at hX
    have pa := w.memP a ha.1
    have pb := w.memP b hb.1
    have qa : R.lin.end a ∈ c.P := w.memP _ (w.oppLt a ha.1)
    have qb : R.lin.end b ∈ c.P := w.memP _ (w.oppLt b hb.1)
    have la := w.lr a ha
    have lb := w.lr b hb
    have oa1 := w.onL a ha
    have oa2 := w.onR a ha
    have ob1 := w.onL b hb
    have ob2 := w.onR b hb
    have cmp : ∀ {p q : Point}, p ∈ c.P → q ∈ c.P → (p.ltB q = true ↔ c.X p < c.X q) := fun hp hq => by
      rw [Point.ltB_iff, gd.lt_iff hp hq]
    have eqv : ∀ {p q : Point}, p ∈ c.P → q ∈ c.P → (p = q ↔ c.X p = c.X q) := fun hp hq => gd.eq_iff hp hq
    have eL : c.X (R.lin.start a) = lx c R.lin a := rfl
    have eR : c.X (R.lin.end a) = rx c R.lin a := rfl
    have fL : c.X (R.lin.start b) = lx c R.lin b := rfl
    have fR : c.X (R.lin.end b) = rx c R.lin b := rfl
    obtain ⟨s1, s2, s3⟩ := Ctx.orient_on_rev (q := R.lin.start a) ob1 ob2 lb
    obtain ⟨e1, e2, e3⟩ := Ctx.orient_on_rev (q := R.lin.end a) ob1 ob2 lb
    obtain ⟨t1, t2, t3⟩ := Ctx.orient_on (q := R.lin.start b) oa1 oa2 la
    obtain ⟨u1, u2, u3⟩ := Ctx.orient_on (q := R.lin.end b) oa1 oa2 la
    have ya : (R.lin.start a).y = c.f (R.lin.sid a) (lx c R.lin a) := oa1
    have ya' : (R.lin.end a).y = c.f (R.lin.sid a) (rx c R.lin a) := oa2
    have yb : (R.lin.start b).y = c.f (R.lin.sid b) (lx c R.lin b) := ob1
    have yb' : (R.lin.end b).y = c.f (R.lin.sid b) (rx c R.lin b) := ob2
    rw [eL, ya] at s1 s2 s3
    rw [eR, ya'] at e1 e2 e3
    rw [fL, yb] at t1 t2 t3
    rw [fR, yb'] at u1 u2 u3
    by_cases h12 : orient (R.lin.end b) (R.lin.start b) (R.lin.start a) = orient (R.lin.end b) (R.lin.start b) (R.lin.end a)
    · rw [if_pos h12] at hX
      by_cases hcol : orient (R.lin.end b) (R.lin.start b) (R.lin.start a) = .collinear
      · rw [if_pos hcol] at hX
        have hc : CollE c R.lin b a := (Ctx.coll_of_two la.ne (s3.mp hcol) (e3.mp (h12 ▸ hcol))).symm
        by_cases hs : R.lin.start a = R.lin.start b
        · rw [if_pos hs] at hX; rw [hX]; exact .longer hc hs
        rw [if_neg hs] at hX
        by_cases he : R.lin.end a = R.lin.end b
        · rw [if_pos he] at hX
          have er : rx c R.lin a = rx c R.lin b := by unfold rx; rw [he]
          by_cases hlt : (R.lin.start a).ltB (R.lin.start b) = true
          · rw [if_pos hlt] at hX; rw [hX]
            have := (cmp pa pb).mp hlt
            exact .same (Or.inl ⟨rfl, rfl⟩) hc ⟨this, er ▸ lb⟩ he
          · rw [if_neg hlt] at hX; rw [hX]
            have h2 : ¬ lx c R.lin a < lx c R.lin b := fun k => hlt ((cmp pa pb).mpr k)
            have h3 : lx c R.lin a ≠ lx c R.lin b := fun k => hs ((eqv pa pb).mpr k)
            exact .same (Or.inr ⟨rfl, rfl⟩) hc ⟨lt_of_le_of_ne (not_lt.mp h2) h3.symm, er ▸ la⟩ he.symm
        rw [if_neg he] at hX
        have hs' : lx c R.lin a ≠ lx c R.lin b := fun k => hs ((eqv pa pb).mpr k)
        have he' : rx c R.lin a ≠ rx c R.lin b := fun k => he ((eqv qa qb).mpr k)
        by_cases h3 : (R.lin.start b).ltB (R.lin.start a) && (R.lin.start a).ltB (R.lin.end b)
        · rw [if_pos h3] at hX
          rw [Bool.and_eq_true, cmp pb pa, cmp pa qb] at h3
          by_cases h4 : (R.lin.end a).ltB (R.lin.end b) = true
          · rw [if_pos h4] at hX; rw [hX]
            have k := (cmp qa qb).mp h4
            exact .inside (Or.inr ⟨rfl, rfl⟩) hc h3 ⟨by rw [fL, eL, fR] at h3; rw [eR, fR] at k; linarith, k⟩
          · rw [if_neg h4] at hX; rw [hX]
            have k : ¬ rx c R.lin a < rx c R.lin b := fun k => h4 ((cmp qa qb).mpr k)
            exact .overlap (Or.inr ⟨rfl, rfl⟩) hc h3 ⟨h3.2, lt_of_le_of_ne (not_lt.mp k) he'.symm⟩
        rw [if_neg h3] at hX
        by_cases h5 : (R.lin.start a).ltB (R.lin.start b) && (R.lin.start b).ltB (R.lin.end a)
        · rw [if_pos h5] at hX
          rw [Bool.and_eq_true, cmp pa pb, cmp pb qa] at h5
          by_cases h4 : (R.lin.end b).ltB (R.lin.end a) = true
          · rw [if_pos h4] at hX; rw [hX]
            have k := (cmp qb qa).mp h4
            exact .inside (Or.inl ⟨rfl, rfl⟩) hc h5 ⟨by rw [fL, eL, eR] at h5; rw [eR, fR] at k; linarith, k⟩
          · rw [if_neg h4] at hX; rw [hX]
            have k : ¬ rx c R.lin b < rx c R.lin a := fun k => h4 ((cmp qb qa).mpr k)
            exact .overlap (Or.inl ⟨rfl, rfl⟩) hc h5 ⟨h5.2, lt_of_le_of_ne (not_lt.mp k) he'⟩
        rw [if_neg h5] at hX; rw [hX]
        refine .none (fun _ => ?_) (fun k => absurd hc k)
        rw [Bool.and_eq_true, cmp pb pa, cmp pa qb, eL, fL, fR] at h3
        rw [Bool.and_eq_true, cmp pa pb, cmp pb qa, eL, fL, eR] at h5
        rcases lt_or_gt_of_ne hs' with k | k
        · right; by_contra g; exact h5 ⟨k, by linarith⟩
        · left; by_contra g; exact h3 ⟨k, by linarith⟩
      · rw [if_neg hcol] at hX; rw [hX]
        have hc : ¬ CollE c R.lin b a := fun hc => hcol (s3.mpr (hc.f_eq _).symm)
        refine .none (fun k => absurd k hc) (fun _ t ht k1 k2 k3 k4 => ?_)
        exfalso
        rcases ho : orient (R.lin.end b) (R.lin.start b) (R.lin.start a) with _ | _ | _
        · have := aff_lt (s2.mp ho) (e2.mp (h12 ▸ ho)) k3 k4; linarith
        · exact hcol ho
        · have := aff_lt (s1.mp ho) (e1.mp (h12 ▸ ho)) k3 k4; linarith
    rw [if_neg h12] at hX
    have hc : ¬ CollE c R.lin b a := fun hc => h12 ((s3.mpr (hc.f_eq _).symm).trans (e3.mpr (hc.f_eq _).symm).symm)
    -- uniqueness of the contact
    have uniq : ∀ {t t' : ℚ}, c.f (R.lin.sid b) t = c.f (R.lin.sid a) t → c.f (R.lin.sid b) t' = c.f (R.lin.sid a) t' → t = t' := by
      intro t t' k k'
      by_contra g
      exact hc (Ctx.coll_of_two g k k')
    by_cases h1 : orient (R.lin.end b) (R.lin.start b) (R.lin.start a) = .collinear
    · rw [if_pos h1] at hX
      have hf := s3.mp h1
      by_cases h3 : (R.lin.start b).ltB (R.lin.start a) && (R.lin.start a).ltB (R.lin.end b)
      · rw [if_pos h3] at hX; rw [hX]
        rw [Bool.and_eq_true, cmp pb pa, cmp pa qb] at h3
        exact .mid hc pa (by unfold Ctx.On; rw [eL, ya, hf]) oa1 le_rfl la.le h3 (fun g => lt_irrefl _ g.1)
      · rw [if_neg h3] at hX; rw [hX]
        rw [Bool.and_eq_true, cmp pb pa, cmp pa qb] at h3
        refine .none (fun k => absurd k hc) (fun _ t ht k1 k2 k3 k4 => ?_)
        have e := uniq ht hf.symm
        subst e
        exact ⟨h3, fun g => lt_irrefl _ g.1⟩
    rw [if_neg h1] at hX
    by_cases h2 : orient (R.lin.end b) (R.lin.start b) (R.lin.end a) = .collinear
    · rw [if_pos h2] at hX
      have hf := e3.mp h2
      by_cases h3 : (R.lin.start b).ltB (R.lin.end a) && (R.lin.end a).ltB (R.lin.end b)
      · rw [if_pos h3] at hX; rw [hX]
        rw [Bool.and_eq_true, cmp pb qa, cmp qa qb] at h3
        exact .mid hc qa (by unfold Ctx.On; rw [eR, ya', hf]) oa2 la.le le_rfl h3 (fun g => lt_irrefl _ g.2)
      · rw [if_neg h3] at hX; rw [hX]
        rw [Bool.and_eq_true, cmp pb qa, cmp qa qb] at h3
        refine .none (fun k => absurd k hc) (fun _ t ht k1 k2 k3 k4 => ?_)
        have e := uniq ht hf.symm
        subst e
        exact ⟨h3, fun g => lt_irrefl _ g.2⟩
    rw [if_neg h2] at hX
    by_cases h3 : orient (R.lin.start a) (R.lin.end a) (R.lin.start b) = .collinear
    · rw [if_pos h3] at hX
      have hf := t3.mp h3
      by_cases h4 : (R.lin.start a).ltB (R.lin.start b) && (R.lin.start b).ltB (R.lin.end a)
      · rw [if_pos h4] at hX; rw [hX]
        rw [Bool.and_eq_true, cmp pa pb, cmp pb qa] at h4
        exact .above hc pb ob1 (by unfold Ctx.On; rw [fL, yb, hf]) le_rfl lb.le h4 (fun g => lt_irrefl _ g.1)
      · rw [if_neg h4] at hX; rw [hX]
        rw [Bool.and_eq_true, cmp pa pb, cmp pb qa] at h4
        refine .none (fun k => absurd k hc) (fun _ t ht k1 k2 k3 k4 => ?_)
        have e := uniq ht hf
        subst e
        exact ⟨fun g => lt_irrefl _ g.1, h4⟩
    rw [if_neg h3] at hX
    by_cases h4 : orient (R.lin.start a) (R.lin.end a) (R.lin.end b) = .collinear
    · rw [if_pos h4] at hX
      have hf := u3.mp h4
      by_cases h5 : (R.lin.start a).ltB (R.lin.end b) && (R.lin.end b).ltB (R.lin.end a)
      · rw [if_pos h5] at hX; rw [hX]
        rw [Bool.and_eq_true, cmp pa qb, cmp qb qa] at h5
        exact .above hc qb ob2 (by unfold Ctx.On; rw [fR, yb', hf]) lb.le le_rfl h5 (fun g => lt_irrefl _ g.2)
      · rw [if_neg h5] at hX; rw [hX]
        rw [Bool.and_eq_true, cmp pa qb, cmp qb qa] at h5
        refine .none (fun k => absurd k hc) (fun _ t ht k1 k2 k3 k4 => ?_)
        have e := uniq ht hf
        subst e
        exact ⟨fun g => lt_irrefl _ g.2, h5⟩
    rw [if_neg h4] at hX
    by_cases h5 : orient (R.lin.start a) (R.lin.end a) (R.lin.start b) ≠ orient (R.lin.start a) (R.lin.end a) (R.lin.end b)
    · rw [if_pos h5] at hX
      have crossb : ∀ t, c.f (R.lin.sid b) t = c.f (R.lin.sid a) t → Int c R.lin b t := by
        intro t ht
        rcases o1 : orient (R.lin.start a) (R.lin.end a) (R.lin.start b) with _ | _ | _
        · rcases o2 : orient (R.lin.start a) (R.lin.end a) (R.lin.end b) with _ | _ | _
          · exact absurd (o1.trans o2.symm) h5
          · exact absurd o2 h4
          · exact aff_cross hc ht (t2.mp o1) (u1.mp o2) lb
        · exact absurd o1 h3
        · rcases o2 : orient (R.lin.start a) (R.lin.end a) (R.lin.end b) with _ | _ | _
          · exact aff_cross (fun k => hc k.symm) ht.symm (t1.mp o1) (u2.mp o2) lb
          · exact absurd o2 h4
          · exact absurd (o1.trans o2.symm) h5
      have crossa : ∀ t, c.f (R.lin.sid b) t = c.f (R.lin.sid a) t → Int c R.lin a t := by
        intro t ht
        rcases o1 : orient (R.lin.end b) (R.lin.start b) (R.lin.start a) with _ | _ | _
        · rcases o2 : orient (R.lin.end b) (R.lin.start b) (R.lin.end a) with _ | _ | _
          · exact absurd (o1.trans o2.symm) h12
          · exact absurd o2 h2
          · exact aff_cross hc ht (s2.mp o1) (e1.mp o2) la
        · exact absurd o1 h1
        · rcases o2 : orient (R.lin.end b) (R.lin.start b) (R.lin.end a) with _ | _ | _
          · exact aff_cross (fun k => hc k.symm) ht.symm (s1.mp o1) (e2.mp o2) la
          · exact absurd o2 h2
          · exact absurd (o1.trans o2.symm) h12
      have hk : c.K (R.lin.sid a) ≠ c.K (R.lin.sid b) := by
        intro hk
        -- parallel lines cannot separate both ends
        have d : ∀ t, c.f (R.lin.sid b) t - c.f (R.lin.sid a) t = c.C (R.lin.sid b) - c.C (R.lin.sid a) := by
          intro t; unfold Ctx.f; rw [hk]; ring
        have d1 := d (lx c R.lin b)
        have d2 := d (rx c R.lin b)
        apply h5
        rcases lt_trichotomy (c.C (R.lin.sid b) - c.C (R.lin.sid a)) 0 with k | k | k
        · rw [t2.mpr (by linarith), u2.mpr (by linarith)]
        · rw [t3.mpr (by linarith), u3.mpr (by linarith)]
        · rw [t1.mpr (by linarith), u1.mpr (by linarith)]
      obtain ⟨k1, k2⟩ := Ctx.intersection_on oa1 oa2 ob1 ob2 la lb hk
      generalize hm : toSegmentsIntersection (R.lin.start a) (R.lin.end a) (R.lin.start b) (R.lin.end b) = m at *
      have ht : c.f (R.lin.sid b) (c.X m) = c.f (R.lin.sid a) (c.X m) := by unfold Ctx.On at k1 k2; rw [← k1, ← k2]
      have ib := crossb _ ht
      have ia := crossa _ ht
      rw [hX]
      have := w.inA a ha; have := w.inB a ha; have := w.inA b hb; have := w.inB b hb
      refine .both hc ?_ k2 k1 ib ia
      refine gd.cross _ (w.sidLt b hb) _ (w.sidLt a ha) hc m k2 k1 ?_ ?_ ?_ ?_
      · linarith [ib.1]
      · linarith [ib.2]
      · linarith [ia.1]
      · linarith [ia.2]
    · rw [if_neg h5] at hX; rw [hX]
      push Not at h5
      refine .none (fun k => absurd k hc) (fun _ t ht k1 k2 k3 k4 => ?_)
      exfalso
      rcases ho : orient (R.lin.start a) (R.lin.end a) (R.lin.start b) with _ | _ | _
      · have := aff_lt (t2.mp ho) (u2.mp (h5 ▸ ho)) k1 k2; linarith
      · exact h3 ho
      · have := aff_lt (t1.mp ho) (u1.mp (h5 ▸ ho)) k1 k2; linarith
  exact key _ rfl

end Rene.BO
