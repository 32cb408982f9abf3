import Verif.Lemmas.Sweep.Inv

/-! The intersection test of two neighbours. -/

namespace Rene.Sweep
open Rene Spec

variable {c : Ctx}

/-- An affine function positive at both ends is positive between. -/
theorem aff_lt {i j : ℕ} {s t u : ℚ} (h1 : c.f i s < c.f j s) (h2 : c.f i u < c.f j u) (hs : s ≤ t)
    (hu : t ≤ u) : c.f i t < c.f j t := by
  unfold Ctx.f at *
  rcases eq_or_lt_of_le (hs.trans hu) with h | h
  · have : t = s := le_antisymm (h ▸ hu) hs
    rw [this]; exact h1
  · by_contra g
    push Not at g
    have e1 : 0 < c.K j * s + c.C j - (c.K i * s + c.C i) := by linarith
    have e2 : 0 < c.K j * u + c.C j - (c.K i * u + c.C i) := by linarith
    have e3 : (u - t) * (c.K j * s + c.C j - (c.K i * s + c.C i)) + (t - s) * (c.K j * u + c.C j - (c.K i * u + c.C i))
      = (u - s) * (c.K j * t + c.C j - (c.K i * t + c.C i)) := by ring
    rcases eq_or_lt_of_le hs with k | k
    · subst k; linarith
    · have := mul_pos (by linarith : 0 < t - s) e2
      have := mul_nonneg (by linarith : 0 ≤ u - t) e1.le
      have : 0 < (u - s) * (c.K j * t + c.C j - (c.K i * t + c.C i)) := by linarith
      have := (mul_pos_iff_of_pos_left (by linarith : 0 < u - s)).mp this
      linarith

/-- A crossing strictly between two points on different sides. -/
theorem aff_cross {i j : ℕ} {s t u : ℚ} (hne : ¬ c.Coll i j) (ht : c.f i t = c.f j t)
    (h1 : c.f i s < c.f j s) (h2 : c.f j u < c.f i u) (hsu : s < u) : s < t ∧ t < u := by
  constructor
  · by_contra g
    push Not at g
    rcases eq_or_lt_of_le g with k | k
    · subst k; linarith
    · unfold Ctx.f at *
      have hk : (c.K j - c.K i) * (s - t) > 0 := by linarith
      have hk : 0 < c.K j - c.K i := (mul_pos_iff_of_pos_right (by linarith)).mp hk
      have := mul_pos hk (by linarith : 0 < u - s)
      linarith
  · by_contra g
    push Not at g
    rcases eq_or_lt_of_le g with k | k
    · subst k; linarith
    · unfold Ctx.f at *
      have hk : (c.K j - c.K i) * (t - u) > 0 := by linarith
      have hk : 0 < c.K j - c.K i := (mul_pos_iff_of_pos_right (by linarith)).mp hk
      have := mul_pos hk (by linarith : 0 < u - s)
      linarith

theorem checked_coll {S : Lin} {a b : ℕ} (hc : CollE c S a b)
    (h : rx c S a ≤ lx c S b ∨ rx c S b ≤ lx c S a ∨ (lx c S a = lx c S b ∧ rx c S a = rx c S b)) :
    Checked c S a b := by
  refine ⟨fun _ => ?_, fun hn => absurd hc hn⟩
  rcases h with h | h | ⟨h, h'⟩
  · exact Or.inl (Or.inl h)
  · exact Or.inl (Or.inr h)
  · exact Or.inr ⟨h, Or.inl h'⟩

theorem checked_non {S : Lin} {a b : ℕ} (hc : ¬ CollE c S a b) (t0 : ℚ)
    (h0 : c.f (S.sid a) t0 = c.f (S.sid b) t0) (ha : ¬ Int c S a t0 ∨ ¬ (lx c S b ≤ t0 ∧ t0 ≤ rx c S b))
    (hb : ¬ Int c S b t0 ∨ ¬ (lx c S a ≤ t0 ∧ t0 ≤ rx c S a)) : Checked c S a b := by
  refine ⟨fun hn => absurd hn hc, fun _ t ht k1 k2 k3 k4 => ?_⟩
  have : t = t0 := by
    by_contra g
    exact hc (Ctx.coll_of_two g ht h0)
  subst this
  constructor
  · rcases ha with g | g
    · exact g
    · exact absurd ⟨k3, k4⟩ g
  · rcases hb with g | g
    · exact g
    · exact absurd ⟨k1, k2⟩ g

theorem checked_none {S : Lin} {a b : ℕ} (hc : ¬ CollE c S a b)
    (h : ∀ t, c.f (S.sid a) t = c.f (S.sid b) t → lx c S a ≤ t → t ≤ rx c S a → lx c S b ≤ t →
      t ≤ rx c S b → False) : Checked c S a b :=
  ⟨fun hn => absurd hn hc, fun _ t ht k1 k2 k3 k4 => (h t ht k1 k2 k3 k4).elim⟩

/-- One division of an event on the sweep line. -/
theorem div_spec {S : Lin} {p : Point} (h : Inv0 c S p) {e : ℕ} {m : Point} (he : e ∈ S.sweepLine)
    (hm : m ∈ c.P) (hon : c.On (S.sid e) m) (h1 : lx c S e < c.X m) (h2 : c.X m < rx c S e) :
    Inv0 c (S.divideByMidpoint e m) p ∧ Ext c S (S.divideByMidpoint e m) ∧
    rx c (S.divideByMidpoint e m) e = c.X m ∧
    (∀ x ∈ S.sweepLine, x ≠ e → rx c (S.divideByMidpoint e m) x = rx c S x) ∧
    (∀ x ∈ S.sweepLine, lx c (S.divideByMidpoint e m) x = lx c S x) ∧
    (∀ x ∈ S.sweepLine, (S.divideByMidpoint e m).sid x = S.sid x) ∧
    (S.divideByMidpoint e m).sweepLine = S.sweepLine := by
  have d := h.wf.divided (h.isL he).1 m
  obtain ⟨i, x⟩ := h.div he hm hon ⟨h1, h2⟩ d
  refine ⟨i, x, ?_, fun y hy hye => ?_, fun y hy => x.lx (h.isL hy).1, fun y hy => x.sid y (h.isL hy).1,
    x.sweepLine⟩
  · unfold rx; rw [d.end_e]
  · unfold rx; rw [h.wf.div_rx (h.isL he) d (h.isL hy) hye]

/-- What the intersection test may change: pieces are divided only inside of them, at common points. -/
structure Chg0 (c : Ctx) (S S' : Lin) (a b : ℕ) : Prop where
  chg : ∀ x, IsL S x → rx c S' x ≠ rx c S x → (x = a ∨ x = b) ∧ ∃ t, Int c S x t ∧
    c.f (S.sid a) t = c.f (S.sid b) t ∧ lx c S a ≤ t ∧ t ≤ rx c S a ∧ lx c S b ≤ t ∧ t ≤ rx c S b
  ins : ∀ y, cnt S ≤ y → y < cnt S' → ∃ x, (x = a ∨ x = b) ∧ c.On (S.sid x) (S'.start y) ∧
    Int c S x (lx c S' y)

theorem Chg0.refl (S : Lin) (a b : ℕ) : Chg0 c S S a b :=
  ⟨fun _ _ h => absurd rfl h, fun _ h h' => absurd h' (not_lt.mpr h)⟩

theorem Chg0.symm {S S' : Lin} {a b : ℕ} (h : Chg0 c S S' a b) : Chg0 c S S' b a := by
  refine ⟨fun x hx hn => ?_, fun y hy hy' => ?_⟩
  · obtain ⟨k, t, k1, k2, k3, k4, k5, k6⟩ := h.chg x hx hn
    exact ⟨k.symm, t, k1, k2.symm, k5, k6, k3, k4⟩
  · obtain ⟨x, k, k'⟩ := h.ins y hy hy'
    exact ⟨x, k.symm, k'⟩

theorem Chg0.trans {S S' S'' : Lin} {a b : ℕ} (h : Chg0 c S S' a b) (h' : Chg0 c S' S'' a b) (x : Ext c S S')
    (x' : Ext c S' S'') (ha : IsL S a) (hb : IsL S b) : Chg0 c S S'' a b := by
  have la := x.lx (c := c) ha.1
  have lb := x.lx (c := c) hb.1
  have ra := x.rx a ha
  have rb := x.rx b hb
  refine ⟨fun z hz hn => ?_, fun y hy hy' => ?_⟩
  · by_cases k : rx c S' z = rx c S z
    · rw [← k] at hn
      obtain ⟨k0, t, k1, k2, k3, k4, k5, k6⟩ := h'.chg z (x.isL hz) hn
      rw [x.sid a ha.1, x.sid b hb.1] at k2
      have lz := x.lx (c := c) hz.1
      have rz := x.rx z hz
      exact ⟨k0, t, ⟨by rw [← lz]; exact k1.1, lt_of_lt_of_le k1.2 rz⟩, k2, by linarith, by linarith, by linarith,
        by linarith⟩
    · exact h.chg z hz k
  · by_cases k : y < cnt S'
    · obtain ⟨z, k1, k2, k3⟩ := h.ins y hy k
      exact ⟨z, k1, by rw [x'.start y k]; exact k2, by rw [x'.lx k]; exact k3⟩
    · obtain ⟨z, k1, k2, k3⟩ := h'.ins y (not_lt.mp k) hy'
      have hz : IsL S z := by rcases k1 with rfl | rfl; exacts [ha, hb]
      have lz := x.lx (c := c) hz.1
      have rz := x.rx z hz
      rw [x.sid z hz.1] at k2
      exact ⟨z, k1, k2, ⟨by rw [← lz]; exact k3.1, lt_of_lt_of_le k3.2 rz⟩⟩

/-- One division. -/
theorem chg_div {S : Lin} {p : Point} (h : Inv0 c S p) {a b : ℕ} {m : Point} (ha : a ∈ S.sweepLine)
    (hon : c.On (S.sid a) m) (h1 : lx c S a < c.X m) (h2 : c.X m < rx c S a)
    (hf : c.f (S.sid a) (c.X m) = c.f (S.sid b) (c.X m)) (h3 : lx c S b ≤ c.X m) (h4 : c.X m ≤ rx c S b) :
    Chg0 c S (S.divideByMidpoint a m) a b := by
  have d := h.wf.divided (h.isL ha).1 m
  refine ⟨fun x hx hn => ?_, fun y hy hy' => ?_⟩
  · by_cases k : x = a
    · subst k
      exact ⟨Or.inl rfl, c.X m, ⟨h1, h2⟩, hf, h1.le, h2.le, h3, h4⟩
    · refine absurd ?_ hn
      unfold rx; rw [h.wf.div_rx (h.isL ha) d hx k]
  · have hs : (S.divideByMidpoint a m).start y = m := by
      rw [d.cnt] at hy'
      rcases Nat.lt_or_ge y (cnt S + 1) with k | k
      · have : y = cnt S := by omega
        rw [this]; exact d.start_new
      · have : y = cnt S + 1 := by omega
        rw [this]; exact d.start_new'
    refine ⟨a, Or.inl rfl, ?_, ?_⟩
    · rw [hs]; exact hon
    · unfold lx; rw [hs]; exact ⟨h1, h2⟩

/-- What the intersection test may change; afterwards collinear pieces with a common start coincide. -/
structure Chg (c : Ctx) (S S' : Lin) (a b : ℕ) : Prop extends Chg0 c S S' a b where
  same : CollE c S a b → lx c S a = lx c S b → rx c S' a = rx c S' b

theorem Chg.symm {S S' : Lin} {a b : ℕ} (h : Chg c S S' a b) : Chg c S S' b a :=
  ⟨h.toChg0.symm, fun hc hl => (h.same hc.symm hl.symm).symm⟩

/-- Result of the intersection test. -/
def Post (c : Ctx) (S S' : Lin) (p : Point) (a b : ℕ) : Prop :=
  Inv0 c S' p ∧ Ext c S S' ∧ Checked c S' a b ∧ Chg c S S' a b

theorem post_id {S : Lin} {p : Point} (h : Inv0 c S p) {a b : ℕ} (hc : Checked c S a b)
    (hs : CollE c S a b → lx c S a = lx c S b → rx c S a = rx c S b) :
    Post c S S p a b := ⟨h, Ext.refl S, hc, Chg0.refl S a b, hs⟩

section
variable {S : Lin} {p : Point} {a b : ℕ}

/-- Non-collinear neighbours: dividing one of them at an end of the other. -/
theorem post_one_non (h : Inv0 c S p) (ha : a ∈ S.sweepLine) (hb : b ∈ S.sweepLine) (hab : a ≠ b) {m : Point}
    (hm : m ∈ c.P) (hon : c.On (S.sid a) m) (hon' : c.On (S.sid b) m) (h1 : lx c S a < c.X m)
    (h2 : c.X m < rx c S a) (hend : c.X m = lx c S b ∨ c.X m = rx c S b) (hc : ¬ CollE c S a b) :
    Post c S (S.divideByMidpoint a m) p a b := by
  obtain ⟨i, x, re, ro, lo, so, _⟩ := div_spec h ha hm hon h1 h2
  have lrb := h.wf.lr b (h.isL hb)
  refine ⟨i, x, ?_, chg_div h ha hon h1 h2 (by unfold Ctx.On at *; rw [← hon, ← hon'])
    (by rcases hend with k | k <;> linarith) (by rcases hend with k | k <;> linarith), fun k => absurd k hc⟩
  have hc' : ¬ CollE c (S.divideByMidpoint a m) a b := by
    unfold CollE at *; rw [so a ha, so b hb]; exact hc
  refine checked_non hc' (c.X m) ?_ (Or.inl ?_) (Or.inl ?_)
  · rw [so a ha, so b hb]; unfold Ctx.On at *; rw [← hon, ← hon']
  · intro k; have := k.2; rw [re] at this; exact lt_irrefl _ this
  · intro k
    have k1 := k.1
    have k2 := k.2
    rw [lo b hb] at k1
    rw [ro b hb hab.symm] at k2
    rcases hend with g | g <;> rw [g] at k1 k2
    · exact lt_irrefl _ k1
    · exact lt_irrefl _ k2

theorem Post.symm {S S' : Lin} (h : Post c S S' p a b) : Post c S S' p b a := ⟨h.1, h.2.1, h.2.2.1.symm, h.2.2.2.symm⟩

/-- Collinear neighbours. -/
theorem post_one_coll (h : Inv0 c S p) (ha : a ∈ S.sweepLine) (hb : b ∈ S.sweepLine) (hab : a ≠ b) {m : Point}
    (hm : m ∈ c.P) (hon : c.On (S.sid a) m) (h1 : lx c S a < c.X m) (h2 : c.X m < rx c S a)
    (hc : CollE c S a b) (hend : c.X m = lx c S b ∨ (lx c S a = lx c S b ∧ c.X m = rx c S b)) :
    Post c S (S.divideByMidpoint a m) p a b := by
  obtain ⟨i, x, re, ro, lo, so, _⟩ := div_spec h ha hm hon h1 h2
  have lrb := h.wf.lr b (h.isL hb)
  refine ⟨i, x, ?_, chg_div h ha hon h1 h2 (hc.f_eq _)
    (by rcases hend with k | k <;> linarith) (by rcases hend with k | k <;> linarith), fun _ hl => ?_⟩
  swap
  · rw [re, ro b hb hab.symm]
    rcases hend with k | k
    · linarith
    · exact k.2
  have hc' : CollE c (S.divideByMidpoint a m) a b := by
    unfold CollE at *; rw [so a ha, so b hb]; exact hc
  refine checked_coll hc' ?_
  rw [lo a ha, lo b hb, re, ro b hb hab.symm]
  rcases hend with g | ⟨g, g'⟩
  · left; exact g.le
  · right; right; exact ⟨g, g'⟩

theorem post_mid (h : Inv0 c S p) (ha : a ∈ S.sweepLine) (hb : b ∈ S.sweepLine) (hab : a ≠ b)
    {m m' : Point} (hm : m ∈ c.P) (hm' : m' ∈ c.P) (hon : c.On (S.sid a) m) (hon' : c.On (S.sid a) m')
    (h1 : lx c S a < c.X m) (h2 : c.X m < c.X m') (h3 : c.X m' < rx c S a)
    (hc : CollE c S a b) (hend : c.X m = lx c S b) (hend' : c.X m' = rx c S b) :
    Post c S (S.divideByMidSegment a m m') p a b := by
  obtain ⟨i, x, re, ro, lo, so, st⟩ := div_spec h ha hm' hon' (h1.trans h2) h3
  unfold Lin.divideByMidSegment
  have := post_one_coll (a := a) (b := b) (m := m) i (by rw [st]; exact ha) (by rw [st]; exact hb) hab hm
    (by rw [so a ha]; exact hon) (by rw [lo a ha]; exact h1) (by rw [re]; exact h2)
    (by unfold CollE at *; rw [so a ha, so b hb]; exact hc) (Or.inl (by rw [lo b hb]; exact hend))
  exact ⟨this.1, x.trans this.2.1, this.2.2.1,
    (chg_div h ha hon' (h1.trans h2) h3 (hc.f_eq _) (by linarith) (by linarith)).trans this.2.2.2.toChg0 x this.2.1
      (h.isL ha) (h.isL hb), fun _ hl => by exfalso; linarith⟩

/-- `a` starts first, `b` ends last. -/
theorem post_overlap (h : Inv0 c S p) (ha : a ∈ S.sweepLine) (hb : b ∈ S.sweepLine) (hab : a ≠ b)
    {m m' : Point} (hm : m ∈ c.P) (hm' : m' ∈ c.P) (hon : c.On (S.sid a) m) (hon' : c.On (S.sid b) m')
    (h1 : lx c S a < c.X m) (h2 : c.X m < rx c S a) (h3 : lx c S b < c.X m') (h4 : c.X m' < rx c S b)
    (hc : CollE c S a b) (hend : c.X m = lx c S b) (hend' : c.X m' = rx c S a) :
    Post c S (S.divideOverlapping a b m m') p a b := by
  obtain ⟨i, x, re, ro, lo, so, st⟩ := div_spec h hb hm' hon' h3 h4
  unfold Lin.divideOverlapping
  have := post_one_coll (a := a) (b := b) (m := m) i (by rw [st]; exact ha) (by rw [st]; exact hb) hab hm
    (by rw [so a ha]; exact hon) (by rw [lo a ha]; exact h1) (by rw [ro a ha hab]; exact h2)
    (by unfold CollE at *; rw [so a ha, so b hb]; exact hc) (Or.inl (by rw [lo b hb]; exact hend))
  exact ⟨this.1, x.trans this.2.1, this.2.2.1,
    (chg_div h hb hon' h3 h4 (hc.symm.f_eq _) (by linarith) (by linarith)).symm.trans this.2.2.2.toChg0 x this.2.1
      (h.isL ha) (h.isL hb), fun _ hl => by exfalso; linarith⟩

theorem post_cross (h : Inv0 c S p) (ha : a ∈ S.sweepLine) (hb : b ∈ S.sweepLine) (hab : a ≠ b)
    {m : Point} (hm : m ∈ c.P) (hon : c.On (S.sid a) m) (hon' : c.On (S.sid b) m)
    (h1 : lx c S a < c.X m) (h2 : c.X m < rx c S a) (h3 : lx c S b < c.X m) (h4 : c.X m < rx c S b)
    (hc : ¬ CollE c S a b) :
    Post c S ((S.divideByMidpoint a m).divideByMidpoint b m) p a b := by
  obtain ⟨i, x, re, ro, lo, so, st⟩ := div_spec h ha hm hon h1 h2
  have := post_one_non (a := b) (b := a) (m := m) i (by rw [st]; exact hb) (by rw [st]; exact ha) hab.symm hm
    (by rw [so b hb]; exact hon') (by rw [so a ha]; exact hon) (by rw [lo b hb]; exact h3)
    (by rw [ro b hb hab.symm]; exact h4) (Or.inr re.symm)
    (by unfold CollE at *; rw [so a ha, so b hb]; exact fun g => hc g.symm)
  have hf : c.f (S.sid a) (c.X m) = c.f (S.sid b) (c.X m) := by unfold Ctx.On at *; rw [← hon, ← hon']
  exact ⟨this.1, x.trans this.2.1, this.2.2.1.symm,
    (chg_div h ha hon h1 h2 hf h3.le h4.le).trans this.2.2.2.toChg0.symm x this.2.1
      (h.isL ha) (h.isL hb), fun k => absurd k hc⟩

end

theorem detect_spec (g : c.Good) {S : Lin} {p : Point} (h : Inv0 c S p) {a b : ℕ} (ha : a ∈ S.sweepLine)
    (hb : b ∈ S.sweepLine) (hab : a ≠ b) :
    Post c S (S.detect a b) p a b ∧ S.detectAsserts a b = true := by
  have la := h.isL ha
  have lb := h.isL hb
  have mla := h.wf.memP a la.1
  have mlb := h.wf.memP b lb.1
  have mra : S.end a ∈ c.P := h.wf.memP _ (h.wf.oppLt a la.1)
  have mrb : S.end b ∈ c.P := h.wf.memP _ (h.wf.oppLt b lb.1)
  have ola := h.wf.onL a la
  have olb := h.wf.onL b lb
  have ora := h.wf.onR a la
  have orb := h.wf.onR b lb
  have lra : c.X (S.start a) < c.X (S.end a) := h.wf.lr a la
  have lrb : c.X (S.start b) < c.X (S.end b) := h.wf.lr b lb
  -- orientation of the ends of `b` against `a`
  obtain ⟨s1, s2, s3⟩ := Ctx.orient_on_rev (q := S.start b) ola ora lra
  obtain ⟨e1, e2, e3⟩ := Ctx.orient_on_rev (q := S.end b) ola ora lra
  obtain ⟨bs1, bs2, bs3⟩ := Ctx.orient_on (q := S.start a) olb orb lrb
  obtain ⟨be1, be2, be3⟩ := Ctx.orient_on (q := S.end a) olb orb lrb
  have hyla : (S.start a).y = c.f (S.sid a) (c.X (S.start a)) := ola
  have hyra : (S.end a).y = c.f (S.sid a) (c.X (S.end a)) := ora
  have hylb : (S.start b).y = c.f (S.sid b) (c.X (S.start b)) := olb
  have hyrb : (S.end b).y = c.f (S.sid b) (c.X (S.end b)) := orb
  rw [hylb] at s1 s2 s3
  rw [hyrb] at e1 e2 e3
  rw [hyla] at bs1 bs2 bs3
  rw [hyra] at be1 be2 be3
  have ltB : ∀ {p q : Point}, p ∈ c.P → q ∈ c.P → (p.ltB q = true ↔ c.X p < c.X q) := by
    intro p q hp hq; rw [Point.ltB_iff]; exact g.lt_iff hp hq
  have lbl : (S.start b).ltB (S.start a) = true ↔ c.X (S.start b) < c.X (S.start a) := ltB mlb mla
  unfold Lin.detect Lin.detectAsserts
  simp only
  by_cases h12 : orient (S.end a) (S.start a) (S.start b) = orient (S.end a) (S.start a) (S.end b)
  · rw [if_pos h12, if_pos h12]
    by_cases hcol : orient (S.end a) (S.start a) (S.start b) = .collinear
    · rw [if_pos hcol, if_pos hcol]
      have k1 := s3.mp hcol
      have k2 := e3.mp (h12 ▸ hcol)
      have hc : CollE c S a b := Ctx.coll_of_two lrb.ne k1.symm k2.symm
      constructor
      · by_cases q1 : S.start b = S.start a
        · rw [if_pos q1]
          have q1' : c.X (S.start b) = c.X (S.start a) := by rw [q1]
          by_cases q2 : S.end b = S.end a
          · rw [if_neg (by simpa using q2)]
            refine post_id h (checked_coll hc (Or.inr (Or.inr ⟨?_, ?_⟩))) (fun _ _ => ?_)
            · unfold lx; rw [q1]
            · unfold rx; rw [q2]
            · unfold rx; rw [q2]
          · rw [if_pos q2]
            by_cases q3 : (S.end b).ltB (S.end a) = true
            · rw [if_pos q3]
              rw [ltB mrb mra] at q3
              exact post_one_coll h ha hb hab mrb (Ctx.On.coll hc.symm orb)
                (by unfold lx; linarith) q3 hc (Or.inr ⟨q1'.symm, rfl⟩)
            · rw [if_neg q3]
              rw [ltB mrb mra, not_lt] at q3
              have q3 := lt_of_le_of_ne q3 (fun e => q2 ((g.eq_iff mrb mra).mpr e.symm))
              exact (post_one_coll h hb ha hab.symm mra (Ctx.On.coll hc ora)
                (by unfold lx; linarith) q3 hc.symm (Or.inr ⟨q1', rfl⟩)).symm
        · rw [if_neg q1]
          have q1' : c.X (S.start b) ≠ c.X (S.start a) := fun e => q1 ((g.eq_iff mlb mla).mpr e)
          by_cases q2 : S.end b = S.end a
          · rw [if_pos q2]
            have q2' : c.X (S.end b) = c.X (S.end a) := by rw [q2]
            by_cases q3 : (S.start b).ltB (S.start a) = true
            · rw [if_pos q3]
              rw [lbl] at q3
              exact (post_one_coll h hb ha hab.symm mla (Ctx.On.coll hc ola) q3
                (by unfold rx; linarith) hc.symm (Or.inl rfl)).symm
            · rw [if_neg q3]
              rw [lbl, not_lt] at q3
              have q3 := lt_of_le_of_ne q3 (fun e => q1' e.symm)
              exact post_one_coll h ha hb hab mlb (Ctx.On.coll hc.symm olb) q3
                (by unfold rx; linarith) hc (Or.inl rfl)
          · rw [if_neg q2]
            have q2' : c.X (S.end b) ≠ c.X (S.end a) := fun e => q2 ((g.eq_iff mrb mra).mpr e)
            by_cases q3 : ((S.start a).ltB (S.start b) && (S.start b).ltB (S.end a)) = true
            · rw [if_pos q3]
              rw [Bool.and_eq_true, ltB mla mlb, ltB mlb mra] at q3
              by_cases q4 : (S.end b).ltB (S.end a) = true
              · rw [if_pos q4]
                rw [ltB mrb mra] at q4
                exact post_mid h ha hb hab mlb mrb (Ctx.On.coll hc.symm olb) (Ctx.On.coll hc.symm orb)
                  q3.1 lrb q4 hc rfl rfl
              · rw [if_neg q4]
                rw [ltB mrb mra, not_lt] at q4
                have q4 := lt_of_le_of_ne q4 (fun e => q2' e.symm)
                exact post_overlap h ha hb hab mlb mra (Ctx.On.coll hc.symm olb) (Ctx.On.coll hc ora)
                  q3.1 q3.2 q3.2 q4 hc rfl rfl
            · rw [if_neg q3]
              by_cases q5 : ((S.start b).ltB (S.start a) && (S.start a).ltB (S.end b)) = true
              · rw [if_pos q5]
                rw [Bool.and_eq_true, lbl, ltB mla mrb] at q5
                by_cases q6 : (S.end a).ltB (S.end b) = true
                · rw [if_pos q6]
                  rw [ltB mra mrb] at q6
                  exact (post_mid h hb ha hab.symm mla mra (Ctx.On.coll hc ola) (Ctx.On.coll hc ora)
                    q5.1 lra q6 hc.symm rfl rfl).symm
                · rw [if_neg q6]
                  rw [ltB mra mrb, not_lt] at q6
                  have q6 := lt_of_le_of_ne q6 q2'
                  exact (post_overlap h hb ha hab.symm mla mrb (Ctx.On.coll hc ola) (Ctx.On.coll hc.symm orb)
                    q5.1 q5.2 q5.2 q6 hc.symm rfl rfl).symm
              · rw [if_neg q5]
                rw [Bool.and_eq_true, ltB mla mlb, ltB mlb mra] at q3
                rw [Bool.and_eq_true, lbl, ltB mla mrb] at q5
                refine post_id h (checked_coll hc ?_) (fun _ hl => absurd hl.symm q1')
                unfold lx rx
                rcases lt_or_gt_of_ne q1' with k | k
                · right; left
                  by_contra z; exact q5 ⟨k, not_le.mp z⟩
                · left
                  by_contra z; exact q3 ⟨k, not_le.mp z⟩
      · by_cases so : SameOp c S a b
        · have pa1 := h.lx_le ha
          have pa2 := h.le_rx ha
          have pb1 := h.lx_le hb
          have pb2 := h.le_rx hb
          rcases h.wf.noOv a b la lb hab so hc with k | k
          · have : S.start b = S.end a := (g.eq_iff mlb mra).mpr (by unfold lx rx at *; linarith)
            simp [this]
          · have : S.end b = S.start a := (g.eq_iff mrb mla).mpr (by unfold lx rx at *; linarith)
            simp [this]
        · have : S.leftFirst a ≠ S.leftFirst b := by
            unfold Lin.leftFirst
            rw [h.wf.fc]
            intro k
            apply so
            unfold SameOp
            rw [decide_eq_decide] at k
            exact k
          simp [this]
    · rw [if_neg hcol, if_neg hcol]
      have hc : ¬ CollE c S a b := fun hc => hcol (s3.mpr (hc.f_eq _).symm)
      refine ⟨post_id h ?_ (fun k => absurd k hc), rfl⟩
      refine checked_none hc fun t ht _ _ k3 k4 => ?_
      rcases ho : orient (S.end a) (S.start a) (S.start b) with _ | _ | _
      · have := aff_lt (s2.mp ho) (e2.mp (h12 ▸ ho)) k3 k4
        linarith
      · exact hcol ho
      · have := aff_lt (s1.mp ho) (e1.mp (h12 ▸ ho)) k3 k4
        linarith
  · rw [if_neg h12, if_neg h12]
    have hc : ¬ CollE c S a b := by
      intro hc
      exact h12 ((s3.mpr (hc.f_eq _).symm).trans (e3.mpr (hc.f_eq _).symm).symm)
    by_cases hs : orient (S.end a) (S.start a) (S.start b) = .collinear
    · rw [if_pos hs, if_pos hs]
      refine ⟨?_, rfl⟩
      have k := s3.mp hs
      by_cases q : ((S.start a).ltB (S.start b) && (S.start b).ltB (S.end a)) = true
      · rw [if_pos q]
        rw [Bool.and_eq_true, ltB mla mlb, ltB mlb mra] at q
        refine post_one_non h ha hb hab mlb ?_ olb q.1 q.2 (Or.inl rfl) hc
        unfold Ctx.On; rw [hylb]; exact k
      · rw [if_neg q]
        rw [Bool.and_eq_true, ltB mla mlb, ltB mlb mra] at q
        exact post_id h (checked_non hc _ k.symm (Or.inl q) (Or.inl fun z => lt_irrefl _ z.1)) (fun k => absurd k hc)
    · rw [if_neg hs, if_neg hs]
      by_cases he : orient (S.end a) (S.start a) (S.end b) = .collinear
      · rw [if_pos he, if_pos he]
        refine ⟨?_, rfl⟩
        have k := e3.mp he
        by_cases q : ((S.start a).ltB (S.end b) && (S.end b).ltB (S.end a)) = true
        · rw [if_pos q]
          rw [Bool.and_eq_true, ltB mla mrb, ltB mrb mra] at q
          refine post_one_non h ha hb hab mrb ?_ orb q.1 q.2 (Or.inr rfl) hc
          unfold Ctx.On; rw [hyrb]; exact k
        · rw [if_neg q]
          rw [Bool.and_eq_true, ltB mla mrb, ltB mrb mra] at q
          exact post_id h (checked_non hc _ k.symm (Or.inl q) (Or.inl fun z => lt_irrefl _ z.2)) (fun k => absurd k hc)
      · rw [if_neg he, if_neg he]
        by_cases hbs : orient (S.start b) (S.end b) (S.start a) = .collinear
        · rw [if_pos hbs, if_pos hbs]
          have k := bs3.mp hbs
          constructor
          · by_cases q : ((S.start b).ltB (S.start a) && (S.start a).ltB (S.end b)) = true
            · rw [if_pos q]
              rw [Bool.and_eq_true, lbl, ltB mla mrb] at q
              refine (post_one_non h hb ha hab.symm mla ?_ ola q.1 q.2 (Or.inl rfl) (fun z => hc z.symm)).symm
              unfold Ctx.On; rw [hyla]; exact k
            · rw [if_neg q]
              rw [Bool.and_eq_true, lbl, ltB mla mrb] at q
              exact post_id h (checked_non hc _ k (Or.inl fun z => lt_irrefl _ z.1) (Or.inl q)) (fun k => absurd k hc)
          · rw [decide_eq_true_eq]
            intro z
            have k' := be3.mp z
            exact hc (Ctx.coll_of_two lra.ne k k')
        · rw [if_neg hbs, if_neg hbs]
          by_cases hbe : orient (S.start b) (S.end b) (S.end a) = .collinear
          · rw [if_pos hbe, if_pos hbe]
            refine ⟨?_, rfl⟩
            have k := be3.mp hbe
            by_cases q : ((S.start b).ltB (S.end a) && (S.end a).ltB (S.end b)) = true
            · rw [if_pos q]
              rw [Bool.and_eq_true, ltB mlb mra, ltB mra mrb] at q
              refine (post_one_non h hb ha hab.symm mra ?_ ora q.1 q.2 (Or.inr rfl) (fun z => hc z.symm)).symm
              unfold Ctx.On; rw [hyra]; exact k
            · rw [if_neg q]
              rw [Bool.and_eq_true, ltB mlb mra, ltB mra mrb] at q
              exact post_id h (checked_non hc _ k (Or.inl fun z => lt_irrefl _ z.2) (Or.inl q)) (fun k => absurd k hc)
          · rw [if_neg hbe, if_neg hbe]
            by_cases hd : orient (S.start b) (S.end b) (S.start a) ≠ orient (S.start b) (S.end b) (S.end a)
            · rw [if_pos hd, if_pos hd]
              -- different slopes
              have bdiff : (c.f (S.sid b) (c.X (S.start b)) < c.f (S.sid a) (c.X (S.start b)) ∧
                  c.f (S.sid a) (c.X (S.end b)) < c.f (S.sid b) (c.X (S.end b))) ∨
                  (c.f (S.sid a) (c.X (S.start b)) < c.f (S.sid b) (c.X (S.start b)) ∧
                  c.f (S.sid b) (c.X (S.end b)) < c.f (S.sid a) (c.X (S.end b))) := by
                rcases o1 : orient (S.end a) (S.start a) (S.start b) with _ | _ | _
                · right
                  refine ⟨s2.mp o1, e1.mp ?_⟩
                  rcases o2 : orient (S.end a) (S.start a) (S.end b) with _ | _ | _
                  · exact absurd (o1.trans o2.symm) h12
                  · exact absurd o2 he
                  · rfl
                · exact absurd o1 hs
                · left
                  refine ⟨s1.mp o1, e2.mp ?_⟩
                  rcases o2 : orient (S.end a) (S.start a) (S.end b) with _ | _ | _
                  · rfl
                  · exact absurd o2 he
                  · exact absurd (o1.trans o2.symm) h12
              have adiff : (c.f (S.sid b) (c.X (S.start a)) < c.f (S.sid a) (c.X (S.start a)) ∧
                  c.f (S.sid a) (c.X (S.end a)) < c.f (S.sid b) (c.X (S.end a))) ∨
                  (c.f (S.sid a) (c.X (S.start a)) < c.f (S.sid b) (c.X (S.start a)) ∧
                  c.f (S.sid b) (c.X (S.end a)) < c.f (S.sid a) (c.X (S.end a))) := by
                rcases o1 : orient (S.start b) (S.end b) (S.start a) with _ | _ | _
                · right
                  refine ⟨bs2.mp o1, be1.mp ?_⟩
                  rcases o2 : orient (S.start b) (S.end b) (S.end a) with _ | _ | _
                  · exact absurd (o1.trans o2.symm) hd
                  · exact absurd o2 hbe
                  · rfl
                · exact absurd o1 hbs
                · left
                  refine ⟨bs1.mp o1, be2.mp ?_⟩
                  rcases o2 : orient (S.start b) (S.end b) (S.end a) with _ | _ | _
                  · rfl
                  · exact absurd o2 hbe
                  · exact absurd (o1.trans o2.symm) hd
              have hk : c.K (S.sid b) ≠ c.K (S.sid a) := by
                intro e
                rcases bdiff with ⟨u, v⟩ | ⟨u, v⟩ <;> unfold Ctx.f at u v <;> rw [e] at u v <;> linarith
              obtain ⟨on1, on2⟩ := Ctx.intersection_on olb orb ola ora lrb lra hk
              set m := toSegmentsIntersection (S.start b) (S.end b) (S.start a) (S.end a) with hmdef
              have hf : c.f (S.sid a) (c.X m) = c.f (S.sid b) (c.X m) := by
                unfold Ctx.On at on1 on2; rw [← on1, ← on2]
              have hb' : c.X (S.start b) < c.X m ∧ c.X m < c.X (S.end b) := by
                rcases bdiff with ⟨u, v⟩ | ⟨u, v⟩
                · exact aff_cross (fun z => hc (Ctx.Coll.symm z)) hf.symm u v lrb
                · exact aff_cross hc hf u v lrb
              have ha' : c.X (S.start a) < c.X m ∧ c.X m < c.X (S.end a) := by
                rcases adiff with ⟨u, v⟩ | ⟨u, v⟩
                · exact aff_cross (fun z => hc (Ctx.Coll.symm z)) hf.symm u v lra
                · exact aff_cross hc hf u v lra
              have ia := h.wf.inA a la
              have ib := h.wf.inB a la
              have ja := h.wf.inA b lb
              have jb := h.wf.inB b lb
              unfold lx at ia ja
              unfold rx at ib jb
              have hm : m ∈ c.P := by
                refine g.cross _ (h.wf.sidLt a la) _ (h.wf.sidLt b lb) hc m on2 on1 ?_ ?_ ?_ ?_ <;> linarith
              constructor
              · exact post_cross h ha hb hab hm on2 on1 ha'.1 ha'.2 hb'.1 hb'.2 hc
              · rw [Bool.and_eq_true, Bool.and_eq_true, Bool.and_eq_true, ltB mlb hm, ltB hm mrb,
                  ltB mla hm, ltB hm mra]
                exact ⟨⟨⟨hb'.1, hb'.2⟩, ha'.1⟩, ha'.2⟩
            · rw [if_neg hd, if_neg hd]
              refine ⟨post_id h ?_ (fun k => absurd k hc), rfl⟩
              push Not at hd
              refine checked_none hc fun t ht k1 k2 _ _ => ?_
              rcases ho : orient (S.start b) (S.end b) (S.start a) with _ | _ | _
              · have := aff_lt (bs2.mp ho) (be2.mp (hd ▸ ho)) k1 k2
                linarith
              · exact hbs ho
              · have := aff_lt (bs1.mp ho) (be1.mp (hd ▸ ho)) k1 k2
                linarith

end Rene.Sweep
