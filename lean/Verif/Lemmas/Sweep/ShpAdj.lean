import Verif.Lemmas.Sweep.ShpInv
import Mathlib.Data.Finset.Max

/-! The recorded events below when at most two contours meet inside of a segment. -/

namespace Rene.Sweep
open Rene Spec

variable {c : Ctx}

/-- The point is on the segment, but it is not an end of it. -/
def Strict (c : Ctx) (i : ℕ) (q : Point) : Prop := c.On i q ∧ c.X (c.A i) < c.X q ∧ c.X q < c.X (c.B i)

/-- The point is on the segment. -/
def Thru (c : Ctx) (i : ℕ) (q : Point) : Prop := c.On i q ∧ c.X (c.A i) ≤ c.X q ∧ c.X q ≤ c.X (c.B i)

/-- The segments through a point inside of a segment: that segment, and either another one with the point inside, or
two ones of one operand which end in the point. -/
def Sparse (c : Ctx) : Prop := ∀ i < c.N, ∀ q, Strict c i q →
  (∃ j < c.N, Strict c j q ∧ ∀ k < c.N, Thru c k q → k = i ∨ k = j) ∨
  ∃ u < c.N, ∃ v < c.N, u ≠ v ∧ (c.A u = c.A v → ¬ c.Coll u v) ∧ (u < c.F ↔ v < c.F) ∧ (q = c.A u ∨ q = c.B u) ∧ (q = c.A v ∨ q = c.B v) ∧
    ∀ k < c.N, Thru c k q → k = i ∨ k = u ∨ k = v

/-- Two segments start inside of a segment. -/
structure Tee (c : Ctx) (q : Point) (i u v : ℕ) : Prop where
  strict : Strict c i q
  ilt : i < c.N
  ult : u < c.N
  vlt : v < c.N
  ne : u ≠ v
  nc : ¬ c.Coll u v
  op : u < c.F ↔ v < c.F
  atu : c.A u = q
  atv : c.A v = q
  all : ∀ k < c.N, Thru c k q → k = i ∨ k = u ∨ k = v

section
variable {S S' : Lin} {p : Point} {e : ℕ}

/-- A point inside a piece is inside the segment. -/
theorem Wf.strict (w : Wf c S) {e : ℕ} (he : IsL S e) {q : Point} (hon : c.On (S.sid e) q) (hi : Int c S e (c.X q)) :
    Strict c (S.sid e) q :=
  ⟨hon, lt_of_le_of_lt (w.inA e he) hi.1, lt_of_lt_of_le hi.2 (w.inB e he)⟩

theorem Wf.thru (w : Wf c S) {e : ℕ} (he : IsL S e) {q : Point} (hon : c.On (S.sid e) q) (h1 : lx c S e ≤ c.X q)
    (h2 : c.X q ≤ rx c S e) : Thru c (S.sid e) q :=
  ⟨hon, (w.inA e he).trans h1, h2.trans (w.inB e he)⟩

/-- Pieces of one segment do not overlap. -/
theorem Wf.same (w : Wf c S) {x y : ℕ} (hx : IsL S x) (hy : IsL S y) (hs : S.sid x = S.sid y) (hxy : x ≠ y) :
    rx c S x ≤ lx c S y ∨ rx c S y ≤ lx c S x :=
  w.noOv x y hx hy hxy (by unfold SameOp; rw [hs]) (by unfold CollE; rw [hs]; exact Ctx.Coll.refl _)

/-- The piece of a segment just before a point. -/
theorem Wf.before (w : Wf c S) {k : ℕ} (hk : k < c.N) {T : ℚ} (h1 : c.X (c.A k) < T) (h2 : T ≤ c.X (c.B k)) :
    ∃ a, IsL S a ∧ S.sid a = k ∧ lx c S a < T ∧ T ≤ rx c S a := by
  classical
  obtain ⟨t, t1, t2, t3⟩ : ∃ t, c.X (c.A k) ≤ t ∧ t < T ∧ ∀ x, IsL S x → rx c S x < T → rx c S x < t := by
    let F : Finset ℚ := insert (c.X (c.A k)) (((Finset.range (cnt S)).image (fun x => rx c S x)).filter (fun v => v < T))
    have hF : F.Nonempty := ⟨_, Finset.mem_insert_self _ _⟩
    have hmax : F.max' hF < T := by
      rw [Finset.max'_lt_iff]
      intro v hv
      rcases Finset.mem_insert.mp hv with rfl | hv
      · exact h1
      · exact (Finset.mem_filter.mp hv).2
    refine ⟨(F.max' hF + T) / 2, ?_, by linarith, fun x hx h2 => ?_⟩
    · have := F.le_max' _ (Finset.mem_insert_self (c.X (c.A k)) _)
      linarith
    · have := F.le_max' (rx c S x) (Finset.mem_insert_of_mem (Finset.mem_filter.mpr
        ⟨Finset.mem_image.mpr ⟨x, Finset.mem_range.mpr hx.1, rfl⟩, h2⟩))
      linarith
  obtain ⟨a, la, sa, k1, k2⟩ := w.cover k hk t t1 (by linarith)
  refine ⟨a, la, sa, by linarith, ?_⟩
  by_contra z
  have := t3 a la (not_le.mp z)
  linarith

/-- The piece of a segment just after a point. -/
theorem Wf.after (w : Wf c S) {k : ℕ} (hk : k < c.N) {T : ℚ} (h1 : c.X (c.A k) ≤ T) (h2 : T < c.X (c.B k)) :
    ∃ a, IsL S a ∧ S.sid a = k ∧ lx c S a ≤ T ∧ T < rx c S a := by
  classical
  obtain ⟨t, t1, t2, t3⟩ : ∃ t, T < t ∧ t ≤ c.X (c.B k) ∧ ∀ x, IsL S x → T < lx c S x → t < lx c S x := by
    let F : Finset ℚ := insert (c.X (c.B k)) (((Finset.range (cnt S)).image (fun x => lx c S x)).filter (fun v => T < v))
    have hF : F.Nonempty := ⟨_, Finset.mem_insert_self _ _⟩
    have hmin : T < F.min' hF := by
      rw [Finset.lt_min'_iff]
      intro v hv
      rcases Finset.mem_insert.mp hv with rfl | hv
      · exact h2
      · exact (Finset.mem_filter.mp hv).2
    refine ⟨(F.min' hF + T) / 2, by linarith, ?_, fun x hx h2 => ?_⟩
    · have := F.min'_le _ (Finset.mem_insert_self (c.X (c.B k)) _)
      linarith
    · have := F.min'_le (lx c S x) (Finset.mem_insert_of_mem (Finset.mem_filter.mpr
        ⟨Finset.mem_image.mpr ⟨x, Finset.mem_range.mpr hx.1, rfl⟩, h2⟩))
      linarith
  obtain ⟨a, la, sa, k1, k2⟩ := w.cover k hk t (by linarith) t2
  refine ⟨a, la, sa, ?_, by linarith⟩
  by_contra z
  have := t3 a la (not_le.mp z)
  linarith

/-- Nothing passes through the point. -/
def Free (c : Ctx) (S : Lin) (p : Point) : Prop := ∀ e, IsL S e → c.On (S.sid e) p → ¬ Int c S e (c.X p)

/-- Nothing passes through the next event point, or two segments start in a segment there. -/
theorem Inv.free (nt : Sparse c) (g : c.Good) (h : Inv c S p) {e0 : ℕ} (he0 : e0 ∈ S.queue)
    (hmin : ∀ e ∈ S.queue, lx c S e0 ≤ lx c S e) (hlt : c.X p < lx c S e0) :
    Free c S (S.start e0) ∨ isLeft e0 = true ∧ ∃ i u v, Tee c (S.start e0) i u v := by
  by_contra hcon
  rw [not_or] at hcon
  obtain ⟨hcon, hcon2⟩ := hcon
  unfold Free at hcon
  push Not at hcon
  obtain ⟨e, he, hon, hint⟩ := hcon
  have hP : S.start e0 ∈ c.P := h.wf.memP e0 (h.qlt e0 he0)
  have hX : c.X (S.start e0) = lx c S e0 := rfl
  set q := S.start e0 with hq
  rw [← hX] at hlt
  have w := h.wf
  have onq : ∀ {x}, lx c S x < c.X q → x ∉ S.queue := fun h1 h2 => absurd (hmin _ h2) (not_le.mpr h1)
  have hr : ∀ x ∈ S.sweepLine, c.X q ≤ rx c S x := fun x hx => hmin _ ((h.tmem x).mp hx).2.2
  have hl : ∀ x ∈ S.sweepLine, lx c S x < c.X q := fun x hx => lt_of_le_of_lt (h.lx_le hx) hlt
  have heT : e ∈ S.sweepLine := h.mem_of he (onq hint.1) (hlt.trans hint.2)
  -- pieces of the segment of a passing one
  have pass : ∀ {b y}, IsL S b → IsL S y → Int c S b (c.X q) → S.sid y = S.sid b → lx c S y ≤ c.X q → c.X q ≤ rx c S y → y = b := by
    intro b y hb hy hi hs k1 k2
    by_contra hne
    have i1 := hi.1
    have i2 := hi.2
    rcases w.same hy hb hs hne with k | k <;> linarith
  -- nothing ends at the point
  have noEnd : (∀ a b, IsL S a → IsL S b → c.On (S.sid a) q → c.On (S.sid b) q → CollE c S a b → lx c S a < c.X q →
      rx c S a = c.X q → Int c S b (c.X q) → ∀ y, IsL S y → lx c S y = c.X q → S.sid y = S.sid a → False) →
      ∀ a, IsL S a → c.On (S.sid a) q → rx c S a = c.X q → False := by
    intro H a0 la ona ra
    have lra := w.lr a0 la
    have haT : a0 ∈ S.sweepLine := h.mem_of la (onq (by linarith)) (by linarith)
    obtain ⟨a, ha, b, hb, k1, k2, k3, k4, k5⟩ := h.walk (t := c.X q) (w := q.y) (fun e he => (hl e he).le) hr
      (fun x => rx c S x = c.X q) haT heT ona.symm hon.symm ra (fun z => by have := hint.2; linarith)
    have ib : Int c S b (c.X q) := ⟨hl b hb, lt_of_le_of_ne (hr b hb) (fun z => k4 z.symm)⟩
    have lA := h.isL ha
    have lB := h.isL hb
    have la' := hl a ha
    have lb' := hl b hb
    have rb' := hr b hb
    by_cases hc : CollE c S a b
    · rcases k5.1 hc with (z | z) | ⟨z1, z | ⟨y, hy, z, zs⟩⟩
      · linarith
      · linarith
      · exact k4 (z ▸ k3)
      · rw [k3, min_eq_left rb'] at z
        rcases zs with zs | zs
        · exact H a b lA lB k1.symm k2.symm hc la' k3 ib y hy z zs
        · have := pass lB hy ib zs z.le (by have := w.lr y hy; linarith)
          subst this
          linarith
    · exact (k5.2 hc _ (k1.trans k2.symm) la'.le (hr a ha) lb'.le rb').2 ib
  -- the piece of `e0`
  have hL0 : IsL S (S.toLeft e0) ∧ c.On (S.sid (S.toLeft e0)) q ∧
      (isLeft e0 = true ∧ lx c S (S.toLeft e0) = c.X q ∨ rx c S (S.toLeft e0) = c.X q) := by
    by_cases k : isLeft e0 = true
    · rw [toLeft_left k]
      have l : IsL S e0 := ⟨h.qlt e0 he0, isLeft_iff.mp k⟩
      exact ⟨l, w.onL e0 l, Or.inl ⟨k, rfl⟩⟩
    · rw [toLeft_right k]
      have l : IsL S (S.opp e0) := by
        refine ⟨w.oppLt e0 (h.qlt e0 he0), ?_⟩
        have h1 := w.oppPar e0 (h.qlt e0 he0)
        have : ¬ e0 % 2 = 0 := fun z => k (isLeft_iff.mpr z)
        omega
      have hend : S.end (S.opp e0) = q := by
        unfold Lin.end; rw [w.oppOpp e0 (h.qlt e0 he0)]
      refine ⟨l, by rw [← hend]; exact w.onR _ l, Or.inr ?_⟩
      unfold rx; rw [hend]
  obtain ⟨l0, o0, x0⟩ := hL0
  generalize S.toLeft e0 = y0 at l0 o0 x0
  have lr0 := w.lr y0 l0
  rcases nt _ (w.sidLt e he) q (w.strict he hon hint) with ⟨j, hj, sj, hall⟩ | ⟨u, hu, v, hv, huv, hnc, hop, eu, ev, hall⟩
  · -- another segment passes
    have hnc : ¬ c.Coll (S.sid e) j := by
      intro hc
      rcases g.cases q hP with ⟨k, hk, hh⟩ | ⟨a, ha, b, hb, hab, o1, o2, ⟨r1, r2⟩, r3, r4⟩
      · have kk : k = S.sid e ∨ k = j := by
          rcases hh with hh | hh
          · exact hall k hk ⟨by rw [hh]; exact g.onA k hk, by rw [hh], by rw [hh]; exact (g.lt k hk).le⟩
          · exact hall k hk ⟨by rw [hh]; exact g.onB k hk, by rw [hh]; exact (g.lt k hk).le, by rw [hh]⟩
        have st : Strict c k q := by
          rcases kk with rfl | rfl
          · exact w.strict he hon hint
          · exact sj
        rcases hh with hh | hh
        · have := st.2.1; rw [hh] at this; exact lt_irrefl _ this
        · have := st.2.2; rw [hh] at this; exact lt_irrefl _ this
      · rcases hall a ha ⟨o1, r1, r2⟩ with rfl | rfl <;> rcases hall b hb ⟨o2, r3, r4⟩ with rfl | rfl
        · exact hab (Ctx.Coll.refl _)
        · exact hab hc
        · exact hab hc.symm
        · exact hab (Ctx.Coll.refl _)
    have noEnd := noEnd (fun a b ha hb oa ob hc k1 k2 ib _ _ _ _ => by
      have pa := hall _ (w.sidLt a ha) (w.thru ha oa k1.le k2.ge)
      have pb := hall _ (w.sidLt b hb) (w.thru hb ob ib.1.le ib.2.le)
      have hs : S.sid a = S.sid b := by
        unfold CollE at hc
        rcases pa with z | z <;> rcases pb with z' | z' <;> rw [z, z'] at hc ⊢
        · exact absurd hc hnc
        · exact absurd hc.symm hnc
      have := pass hb ha ib hs k1.le k2.ge
      subst this
      have := ib.2
      linarith)
    rcases x0 with ⟨_, x0⟩ | x0
    · have ey : S.sid y0 = j := by
        rcases hall _ (w.sidLt y0 l0) (w.thru l0 o0 x0.le (by linarith)) with z | z
        · exfalso
          have := pass he l0 hint z x0.le (by linarith)
          subst this
          have := hint.1
          linarith
        · exact z
      obtain ⟨a, la, sa, k1, k2⟩ := w.before hj sj.2.1 sj.2.2.le
      have hne : a ≠ y0 := by rintro rfl; linarith
      rcases w.same la l0 (sa.trans ey.symm) hne with k | k
      · exact noEnd a la (by rw [sa]; exact sj.1) (le_antisymm (by linarith) k2)
      · linarith
    · exact noEnd y0 l0 o0 x0
  · -- a vertex
    have noEnd := noEnd (fun a b ha hb oa ob hc k1 k2 ib y hy ly sy => by
      have nb : ∀ k, (q = c.A k ∨ q = c.B k) → S.sid a = k → False := by
        rintro k hk rfl
        rcases hk with hk | hk
        · have := w.inA a ha
          rw [← hk] at this
          linarith
        · have := w.inB y hy
          rw [sy, ← hk] at this
          have := w.lr y hy
          linarith
      rcases hall _ (w.sidLt a ha) (w.thru ha oa k1.le k2.ge) with z | z | z
      · have := pass he ha hint z k1.le k2.ge
        subst this
        have := hint.2
        linarith
      · exact nb u eu z
      · exact nb v ev z)
    have st : ∀ k < c.N, (q = c.A k ∨ q = c.B k) → c.A k = q := by
      rintro k hk (z | z)
      · exact z.symm
      · exfalso
        obtain ⟨a, la, sa, k1, k2⟩ := w.before hk (g.lt k hk) (le_refl _)
        have k3 := w.inB a la
        rw [sa] at k3
        exact noEnd a la (by rw [sa, z]; exact g.onB k hk) (by rw [z]; exact le_antisymm k3 k2)
    refine hcon2 ⟨?_, _, u, v, w.strict he hon hint, w.sidLt e he, hu, hv, huv, hnc ((st u hu eu).trans (st v hv ev).symm), hop, st u hu eu, st v hv ev, hall⟩
    rcases x0 with ⟨k, _⟩ | x0
    · exact k
    · exact (noEnd y0 l0 o0 x0).elim

end

/-- The predecessor of a piece in the order of the pieces where it starts. -/
structure Adj (c : Ctx) (S : Lin) (x : ℕ) (y? : Option ℕ) : Prop where
  pop : ∀ y, y? = some y → Popped S y ∧ y ≠ x ∧ lx c S y ≤ lx c S x ∧ lx c S x < rx c S y ∧
    BelowE c (S.sid y) (S.sid x) (lx c S x)
  settled : ∀ y, y? = some y → ∀ w ∈ S.queue, IsL S w → ¬ Ret c S w y
  all : ∀ z, Popped S z → lx c S z ≤ lx c S x → lx c S x < rx c S z → BelowE c (S.sid z) (S.sid x) (lx c S x) →
    ∃ y, y? = some y ∧ (z = y ∨ BelowE c (S.sid z) (S.sid y) (lx c S x))

/-- The piece starts in the end of a piece of a segment which goes on, and there is nothing between. -/
structure Irr (c : Ctx) (S : Lin) (x y : ℕ) : Prop where
  pop : Popped S y
  ends : rx c S y = lx c S x
  below : BelowE c (S.sid y) (S.sid x) (lx c S x)
  tee : ∃ u v, Tee c (S.start x) (S.sid y) u v
  settled : ∀ w ∈ S.queue, IsL S w → ¬ Ret c S w y
  all : ∀ z, Popped S z → lx c S z ≤ lx c S x → lx c S x < rx c S z → BelowE c (S.sid z) (S.sid x) (lx c S x) →
    S.sid z = S.sid y ∨ BelowE c (S.sid z) (S.sid y) (lx c S x)
  coll : CollE c S y x → ∃ w ∈ S.queue, IsL S w ∧ S.sid w = S.sid y ∧ lx c S w = lx c S x
  first : ∀ z, IsL S z → lx c S z = lx c S x → c.K (S.sid x) ≤ c.K (S.sid z) ∨ S.sid z = S.sid y

/-- The recorded events are those below. -/
structure AInv (c : Ctx) (op : ShpOp) (S : Shp) (p : Point) : Prop where
  free : Free c S.lin p
  ord : ∀ x, Popped S.lin x → lx c S.lin x = c.X p → ∀ w ∈ S.lin.queue, IsL S.lin w → lx c S.lin w = c.X p →
    c.K (S.lin.sid x) ≤ c.K (S.lin.sid w) ∨
    ∃ y, bel S x = BR op S (some y) ∧ Irr c S.lin x y ∧ ¬ CollE c S.lin y x ∧ S.lin.sid w = S.lin.sid y
  adj : ∀ x, Popped S.lin x → ∃ y?, bel S x = BR op S y? ∧ (Adj c S.lin x y? ∨ ∃ y, y? = some y ∧ Irr c S.lin x y)

section
variable {S S' : Lin} {p : Point} {e : ℕ}

theorem Free.step (h : Free c S p) (s : Step c S S' e) (h' : Inv c S' p) : Free c S' p := by
  intro y hy hon hint
  have hyS : IsL S y := by
    refine ⟨?_, hy.2⟩
    by_contra k
    have := h'.qge y (s.new y hy.1 (not_lt.mp k))
    have := hint.1
    linarith
  refine h y hyS (by rw [← s.sid y hyS.1]; exact hon) ⟨?_, lt_of_lt_of_le hint.2 (s.rx y hyS)⟩
  rw [← s.lx hyS.1]; exact hint.1

theorem Free.sj (g : c.Good) (h : Free c S p) (hi : Inv c S p) : SJ c S p := by
  intro z hz ez y hy hc hint
  have hs : S.start z = p := (g.eq_iff (hi.wf.memP z hz.1.1) hi.pP).mpr ez
  have := hi.wf.onL z hz.1
  rw [hs] at this
  refine h y hy ?_ hint
  have k := hc.f_eq (c.X p)
  unfold Ctx.On at this ⊢
  rw [this, k]

/-- Pieces are not cut in the past. -/
theorem keep_rx (g : c.Good) (h : Inv c S p) (s : Step c S S' e) (h' : Inv c S' p) {y : ℕ} (hy : IsL S y)
    {t : ℚ} (ht : t ≤ c.X p) (hf : t < c.X p ∨ (c.On (S.sid y) p → ¬ Int c S y (c.X p))) (hr : t < rx c S y) : t < rx c S' y := by
  by_contra k
  rw [not_lt] at k
  have hy' := s.isL hy
  have l1 := h'.wf.lr y hy'
  rw [s.lx hy.1] at l1
  have mP : S'.end y ∈ c.P := h'.wf.memP _ (h'.wf.oppLt y hy'.1)
  have on : c.On (S.sid y) (S'.end y) := by rw [← s.sid y hy.1]; exact h'.wf.onR y hy'
  have i : Int c S y (c.X (S'.end y)) := ⟨l1, lt_of_le_of_lt k hr⟩
  have k' : c.X (S'.end y) ≤ c.X p := k.trans ht
  rcases eq_or_lt_of_le k' with q | q
  · have : S'.end y = p := (g.eq_iff mP h.pP).mpr q
    rw [this] at on i
    rcases hf with hf | hf
    · have : t < rx c S' y := by unfold rx; rw [q]; exact hf
      exact absurd this (not_lt.mpr k)
    · exact hf on i
  · exact h.noInt _ mP q y hy on i

/-- Pieces which have ended stay. -/
theorem same_rx (g : c.Good) (h : Inv c S p) (s : Step c S S' e) (h' : Inv c S' p) {y : ℕ} (hy : IsL S y)
    (hr : rx c S y ≤ c.X p) : rx c S' y = rx c S y := by
  refine le_antisymm (s.rx y hy) ?_
  by_contra k
  rw [not_le] at k
  have := keep_rx g h s h' hy (t := rx c S' y) (by linarith) (Or.inl (by linarith)) k
  exact lt_irrefl _ this

end

section
variable {op : ShpOp} {inte : ℕ → Bool} {S S' : Shp} {p : Point} {e : ℕ}

/-- The predecessors of old pieces stay. -/
theorem Adj.step (g : c.Good) (h : Inv c S.lin p) (s : Step c S.lin S'.lin e) (h' : Inv c S'.lin p)
    {x : ℕ} {y? : Option ℕ} (hx : Popped S.lin x) (hf : lx c S.lin x < c.X p ∨ Free c S.lin p) (hj : SJ c S.lin p)
    (ad : Adj c S.lin x y?)
    (he : IsL S.lin e → lx c S.lin e ≤ lx c S.lin x → BelowE c (S.lin.sid e) (S.lin.sid x) (lx c S.lin x) → False) :
    Adj c S'.lin x y? := by
  have xl := h.ple x hx.1.1 hx.2
  refine ⟨fun y hy => ?_, fun y hy w hw wL hr => ?_, fun z hz z1 z2 z3 => ?_⟩
  · obtain ⟨k1, k2, k3, k4, k5⟩ := ad.pop y hy
    rw [s.lx k1.1.1, s.lx hx.1.1, s.sid y k1.1.1, s.sid x hx.1.1]
    exact ⟨s.popped.mpr (Or.inl k1), k2, k3, keep_rx g h s h' k1.1 xl (hf.imp_right fun k => k y k1.1) k4, k5⟩
  · have k1 := (ad.pop y hy).1
    obtain ⟨a1, a2, a3, a4⟩ := settled_new s h h' k1 (fun hh => hj y k1 hh) hw wL hr
    exact ad.settled y hy w a1 a3 a4
  · rcases s.popped.mp hz with hzS | ⟨rfl, zL⟩
    · rw [s.lx hzS.1.1, s.lx hx.1.1] at z1
      rw [s.lx hx.1.1] at z2
      rw [s.lx hx.1.1, s.sid z hzS.1.1, s.sid x hx.1.1] at z3
      obtain ⟨y, hy, k⟩ := ad.all z hzS z1 (lt_of_lt_of_le z2 (s.rx z hzS.1)) z3
      refine ⟨y, hy, ?_⟩
      rw [s.lx hx.1.1, s.sid z hzS.1.1, s.sid y (ad.pop y hy).1.1.1]
      exact k
    · exfalso
      rw [s.lx zL.1, s.lx hx.1.1] at z1
      rw [s.lx hx.1.1, s.sid z zL.1, s.sid x hx.1.1] at z3
      exact he zL z1 z3

/-- The segment with the point inside. -/
theorem Tee.eq {q : Point} {i u v k : ℕ} (t : Tee c q i u v) (hk : k < c.N) (hs : Strict c k q) : k = i := by
  rcases t.all k hk ⟨hs.1, hs.2.1.le, hs.2.2.le⟩ with z | z | z
  · exact z
  · have := hs.2.1; rw [z, t.atu] at this; exact absurd this (lt_irrefl _)
  · have := hs.2.1; rw [z, t.atv] at this; exact absurd this (lt_irrefl _)

theorem Irr.step (g : c.Good) (h : Inv c S.lin p) (s : Step c S.lin S'.lin e) (h' : Inv c S'.lin p)
    {x y : ℕ} (hx : Popped S.lin x) (hj : SJ c S.lin p) (ad : Irr c S.lin x y)
    (hr : IsL S.lin e → ¬ Ret c S.lin x e)
    (he : IsL S.lin e → lx c S.lin e ≤ lx c S.lin x → BelowE c (S.lin.sid e) (S.lin.sid x) (lx c S.lin x) →
      S.lin.sid e = S.lin.sid y) :
    Irr c S'.lin x y := by
  have xl := h.ple x hx.1.1 hx.2
  have yc := ad.pop.1.1
  have xc := hx.1.1
  refine ⟨s.popped.mpr (Or.inl ad.pop), ?_, ?_, ?_, fun w hw wL hr => ?_, fun z hz z1 z2 z3 => ?_, fun hc => ?_, fun z hz z1 => ?_⟩
  · rw [same_rx g h s h' ad.pop.1 (by rw [ad.ends]; exact xl), s.lx xc, ad.ends]
  · rw [s.sid y yc, s.sid x xc, s.lx xc]; exact ad.below
  · rw [s.sid y yc, s.start x xc]; exact ad.tee
  · obtain ⟨a1, a2, a3, a4⟩ := settled_new s h h' ad.pop (fun hh => hj y ad.pop hh) hw wL hr
    exact ad.settled w a1 a3 a4
  · rcases s.popped.mp hz with hzS | ⟨rfl, zL⟩
    · rw [s.lx hzS.1.1, s.lx hx.1.1] at z1
      rw [s.lx hx.1.1] at z2
      rw [s.lx hx.1.1, s.sid z hzS.1.1, s.sid x hx.1.1] at z3
      rw [s.lx hx.1.1, s.sid z hzS.1.1, s.sid y yc]
      exact ad.all z hzS z1 (lt_of_lt_of_le z2 (s.rx z hzS.1)) z3
    · rw [s.lx zL.1, s.lx hx.1.1] at z1
      rw [s.lx hx.1.1, s.sid z zL.1, s.sid x hx.1.1] at z3
      left
      rw [s.sid z zL.1, s.sid y yc]
      exact he zL z1 z3
  · have hc' : CollE c S.lin y x := by
      unfold CollE at hc ⊢; rwa [s.sid y yc, s.sid x xc] at hc
    obtain ⟨w, w1, w2, w3, w4⟩ := ad.coll hc'
    have wne : w ≠ e := by
      rintro rfl
      refine hr w2 ⟨?_, w4.symm⟩
      unfold CollE at hc' ⊢
      rw [w3]; exact hc'.symm
    refine ⟨w, (s.queue w w2.1 wne).mpr w1, s.isL w2, ?_, ?_⟩
    · rw [s.sid w w2.1, s.sid y yc, w3]
    · rw [s.lx w2.1, s.lx xc, w4]
  · by_cases hc : z < cnt S.lin
    · rw [s.lx hc, s.lx xc] at z1
      rw [s.sid x xc, s.sid z hc, s.sid y yc]
      exact ad.first z ⟨hc, hz.2⟩ z1
    · right
      have zq := h'.qge z (s.new z hz.1 (not_lt.mp hc))
      rw [s.lx xc] at z1
      have zp : lx c S'.lin z = c.X p := le_antisymm (by rw [z1]; exact xl) zq
      obtain ⟨y0, hy0, ey, hint⟩ := new_at s h h' hz (not_lt.mp hc) zp
      have hs : S'.lin.start z = p := (g.eq_iff (h'.wf.memP z hz.1) h.pP).mpr zp
      have hs' : S.lin.start x = p := (g.eq_iff (h.wf.memP x xc) h.pP).mpr (z1.symm.trans zp)
      have on := h'.wf.onL z hz
      rw [hs, ← ey] at on
      obtain ⟨u, v, t⟩ := ad.tee
      rw [hs'] at t
      rw [← ey, s.sid y yc]
      exact t.eq (h.wf.sidLt y0 hy0) (h.wf.strict hy0 on hint)

/-- A piece of one of the segments which start at the point. -/
theorem Irr.noRet {S : Lin} (w : Wf c S) {x y z : ℕ} (hx : IsL S x) (hz : IsL S z) (a : Irr c S x y) (hn : ¬ CollE c S y x) (hne : z ≠ x) :
    ¬ Ret c S x z := by
  intro hr
  obtain ⟨u, v, t⟩ := a.tee
  have th : ∀ {k}, IsL S k → lx c S k = lx c S x → c.On (S.sid k) (S.start x) → S.sid k = S.sid y ∨ S.sid k = u ∨ S.sid k = v :=
    fun {k} hk e o => t.all _ (w.sidLt k hk) (w.thru hk o e.le (by have := w.lr k hk; change lx c S x ≤ _; linarith))
  have oz : c.On (S.sid z) (S.start x) := by
    have := w.onL x hx
    have k := hr.1.f_eq (c.X (S.start x))
    unfold Ctx.On at this ⊢
    rw [this, k]
  have hs : S.sid x ≠ S.sid z := fun k => by
    rcases w.same hx hz k hne.symm with q | q <;> have := w.lr x hx <;> have := w.lr z hz <;> have := hr.2 <;> linarith
  have hc := hr.1
  unfold CollE at hc hn
  rcases th hx rfl (w.onL x hx) with k | k | k <;> rcases th hz hr.2.symm oz with q | q | q <;> rw [k] at hc hs hn <;> rw [q] at hc hs
  · exact hs rfl
  · exact hn (Ctx.Coll.refl _)
  · exact hn (Ctx.Coll.refl _)
  · exact hn hc.symm
  · exact hs rfl
  · exact t.nc hc
  · exact hn hc.symm
  · exact t.nc hc.symm
  · exact hs rfl

/-- The segment which goes on is unique. -/
theorem Irr.unique {S : Lin} {x y y' : ℕ} (a : Irr c S x y) (a' : Irr c S x y') : S.sid y' = S.sid y := by
  obtain ⟨u, v, t⟩ := a.tee
  obtain ⟨u', v', t'⟩ := a'.tee
  have st := t'.strict
  rcases t.all _ t'.ilt ⟨st.1, st.2.1.le, st.2.2.le⟩ with k | k | k
  · exact k
  · have := st.2.1; rw [k, t.atu] at this; exact absurd this (lt_irrefl _)
  · have := st.2.1; rw [k, t.atv] at this; exact absurd this (lt_irrefl _)

theorem ord_step (g : c.Good) (a : AInv c op S p) (h : Inv c S.lin p) (s : Step c S.lin S'.lin e) (h' : Inv c S'.lin p)
    (l : Least c S.lin e) (hp : lx c S.lin e = c.X p)
    (hirr : ∀ x y, Popped S.lin x → bel S x = BR op S (some y) → Irr c S.lin x y → ¬ CollE c S.lin y x →
      bel S' x = BR op S' (some y) ∧ Irr c S'.lin x y) :
    ∀ x, Popped S'.lin x → lx c S'.lin x = c.X p → ∀ w ∈ S'.lin.queue, IsL S'.lin w → lx c S'.lin w = c.X p →
    c.K (S'.lin.sid x) ≤ c.K (S'.lin.sid w) ∨
    ∃ y, bel S' x = BR op S' (some y) ∧ Irr c S'.lin x y ∧ ¬ CollE c S'.lin y x ∧ S'.lin.sid w = S'.lin.sid y := by
  intro x hx xp w hw wL wp
  by_cases hc : w < cnt S.lin
  · obtain ⟨k1, k2⟩ := s.queued hc hw
    rw [s.lx hc] at wp
    rw [s.sid w hc]
    rcases s.popped.mp hx with hxS | ⟨rfl, xL⟩
    · rw [s.lx hxS.1.1] at xp
      rw [s.sid x hxS.1.1]
      rcases a.ord x hxS xp w k1 ⟨hc, wL.2⟩ wp with q | ⟨y, q1, q2, q3, q4⟩
      · exact Or.inl q
      · right
        obtain ⟨r1, r2⟩ := hirr x y hxS q1 q2 q3
        refine ⟨y, r1, r2, ?_, ?_⟩
        · unfold CollE at q3 ⊢
          rwa [s.sid y q2.pop.1.1, s.sid x hxS.1.1]
        · rw [s.sid y q2.pop.1.1, q4]
    · left
      rw [s.sid x xL.1]
      have hl : isLeft x = true := isLeft_iff.mpr xL.2
      have k := l.slopeL hl w k1 (isLeft_iff.mpr wL.2) (by linarith)
      unfold slope at k
      rwa [toLeft_left hl, toLeft_left (isLeft_iff.mpr wL.2)] at k
  · exfalso
    obtain ⟨y, hy, ey, hint⟩ := new_at s h h' wL (not_lt.mp hc) wp
    have hs : S'.lin.start w = p := (g.eq_iff (h'.wf.memP w wL.1) h.pP).mpr wp
    have := h'.wf.onL w wL
    rw [hs, ← ey] at this
    exact a.free y hy this hint

theorem AInv.step_right (g : c.Good) (h : SInv c op inte S p) (a : AInv c op S (S.lin.start e))
    (hpop : S.lin.popEvent = some e) (hl : ¬ isLeft e = true) :
    AInv c op (S.process op e).1 (S.lin.start e) := by
  obtain ⟨h1, h2, s, _⟩ := h.inv.step g hpop
  have l := least_of_pop g h.inv.wf h.inv.qlt hpop
  obtain ⟨m1, m⟩ := shp_right g (op := op) h1 l rfl hl h.len
  generalize (S.process op e).1 = S' at m ⊢
  have hm := m.lin
  have hj := a.free.sj g h1
  rw [← hm] at h2 s
  have pop : ∀ x, Popped S'.lin x → Popped S.lin x := by
    intro x hx
    rcases s.popped.mp hx with k | ⟨_, k⟩
    · exact k
    · exact absurd (isLeft_iff.mpr k.2) hl
  have kinds : ∀ x, Popped S.lin x → S'.kind x = S.kind x := by
    intro x hx
    rcases m.kinds x hx.1.2 with k | ⟨y, _, hy, hxy, hr, k⟩
    · exact k
    · rw [k, h.kind x y hx hy hxy hr]
      unfold kindOf
      simp only [h.interior]
  have keep : ∀ x, Popped S.lin x → Keep S S' x := fun x hx => ⟨kinds x hx, m.other x, m.below x⟩
  have irr : ∀ x y, Popped S.lin x → bel S x = BR op S (some y) → Irr c S.lin x y →
      bel S' x = BR op S' (some y) ∧ Irr c S'.lin x y := by
    intro x y hx hb b2
    refine ⟨?_, b2.step g h1 s h2 hx hj (fun k => absurd (isLeft_iff.mpr k.2) hl) (fun k => absurd (isLeft_iff.mpr k.2) hl)⟩
    rw [m.below, hb]
    exact ((keep y b2.pop).BR op h1.wf h2.wf b2.pop.1 (s.isL b2.pop.1) (s.sid y b2.pop.1.1)).symm
  refine ⟨a.free.step s h2, ord_step g a h1 s h2 l rfl fun x y hx hb b2 _ => irr x y hx hb b2, fun x hx => ?_⟩
  have hx := pop x hx
  obtain ⟨y?, b1, b2 | ⟨y, rfl, b2⟩⟩ := a.adj x hx
  · refine ⟨y?, ?_, Or.inl (b2.step g h1 s h2 hx (Or.inr a.free) hj (fun k => absurd (isLeft_iff.mpr k.2) hl))⟩
    rw [m.below, b1]
    cases y? with
    | none => rfl
    | some y =>
      have k1 := (b2.pop y rfl).1
      exact ((keep y k1).BR op h1.wf h2.wf k1.1 (s.isL k1.1) (s.sid y k1.1.1)).symm
  · obtain ⟨r1, r2⟩ := irr x y hx b1 b2
    exact ⟨some y, r1, Or.inr ⟨y, rfl, r2⟩⟩

/-- The predecessor in a sorted list. -/
theorem sorted_adj {R : ℕ → ℕ → Prop} (irr : ∀ x, ¬ R x x) (asy : ∀ x y, R x y → ¬ R y x) {L1 L2 : List ℕ} {x : ℕ}
    (srt : (L1 ++ x :: L2).Pairwise R) {z : ℕ} (hz : z ∈ L1 ++ x :: L2) (hr : R z x) :
    ∃ y, L1.getLast? = some y ∧ (z = y ∨ R z y) := by
  rw [List.pairwise_append, List.pairwise_cons] at srt
  have z1 : z ∈ L1 := by
    rcases List.mem_append.mp hz with k | k
    · exact k
    · rcases List.mem_cons.mp k with rfl | k
      · exact absurd hr (irr _)
      · exact absurd hr (asy _ _ (srt.2.1.1 z k))
  rcases List.eq_nil_or_concat L1 with rfl | ⟨L, y, rfl⟩
  · simp at z1
  · refine ⟨y, by simp, ?_⟩
    rw [List.concat_eq_append] at z1 srt
    rcases List.mem_append.mp z1 with k | k
    · exact Or.inr ((List.pairwise_append.mp srt.1).2.2 z k y (by simp))
    · exact Or.inl (by simpa using k)

theorem AInv.step_left (g : c.Good) (h : SInv c op inte S p) (a : AInv c op S (S.lin.start e) ∨
      AInv c op S p ∧ (∃ i u v, Tee c (S.lin.start e) i u v) ∧ ∀ x, Popped S.lin x → lx c S.lin x < lx c S.lin e)
    (hpop : S.lin.popEvent = some e) (hl : isLeft e = true) :
    AInv c op (S.process op e).1 (S.lin.start e) := by
  obtain ⟨h1, h2, s, _⟩ := h.inv.step g hpop
  have l := least_of_pop g h.inv.wf h.inv.qlt hpop
  obtain ⟨A, B, S2, S3, lp⟩ := h1.leftParts g l rfl hl
  obtain ⟨he, hr, heT, hop⟩ := h1.leftBasic l rfl hl
  obtain ⟨m1, m⟩ := shp_left g (op := op) h1 l rfl hl lp h.len (h.fresh e he.2 (Or.inl l.mem))
  generalize (S.process op e).1 = S' at m ⊢
  have hm : S'.lin = S.lin.process e := by rw [m.lin, lp.proc]
  rw [← hm] at h2 s
  have hS3 : S3 = S'.lin := m.lin.symm
  subst hS3
  have xe : c.X (S.lin.start e) = lx c S.lin e := rfl
  have hj : SJ c S.lin (S.lin.start e) := by
    rcases a with a | ⟨_, _, a⟩
    · exact a.free.sj g h1
    · intro z hz ez
      exact absurd (a z hz) (by rw [ez, xe]; exact lt_irrefl _)
  have adj : ∀ x, Popped S.lin x → ∃ y?, bel S x = BR op S y? ∧ (Adj c S.lin x y? ∨ ∃ y, y? = some y ∧ Irr c S.lin x y) := by
    rcases a with a | ⟨a, _⟩ <;> exact a.adj
  have frx : ∀ x, Popped S.lin x → lx c S.lin x < c.X (S.lin.start e) ∨ Free c S.lin (S.lin.start e) := by
    rcases a with a | ⟨_, _, a⟩
    · exact fun x _ => Or.inr a.free
    · exact fun x hx => Or.inl (a x hx)
  have pT : ∀ {y}, y ∈ A ∨ y ∈ B → Popped S.lin y := fun k => lp.popA h1 k
  have ne : ∀ {y}, Popped S.lin y → y ≠ e := fun k z => k.2 (z ▸ l.mem)
  have srt := h1.added_sorted g l rfl hl lp.sweep lp.inv1
  have three : ∀ {x y}, Popped S.lin x → IsL S.lin y → x ≠ y → y ≠ e → Ret c S.lin x e → Ret c S.lin y e → False :=
    fun hx hy xy ye r1 r2 => h1.wf.three hx.1 he hy (ne hx) ye.symm xy r1 r2.symm
  have keep : ∀ {x}, Popped S.lin x → ¬ Ret c S.lin x e → Keep S S' x := fun {x} hx hr =>
    m.keep x hx.1.2 (ne hx) (fun z => hr z.2.symm) (fun z => hr z.2)
  have onp : ∀ {y}, IsL S.lin y → lx c S.lin y = lx c S.lin e → c.f (S.lin.sid y) (lx c S.lin e) = (S.lin.start e).y := by
    intro y hy k
    have hs : S.lin.start y = S.lin.start e := (g.eq_iff (h1.wf.memP y hy.1) (h1.wf.memP e he.1)).mpr k
    have := h1.wf.onL y hy
    rw [hs] at this
    exact this.symm
  have slope : ∀ {y z}, IsL S.lin y → IsL S.lin z → lx c S.lin y = lx c S.lin e → lx c S.lin z = lx c S.lin e →
      ¬ Ret c S.lin y z → BelowE c (S.lin.sid y) (S.lin.sid z) (lx c S.lin e) → c.K (S.lin.sid y) < c.K (S.lin.sid z) := by
    intro y z hy hz e1 e2 hn hb
    rcases hb with (k | k) | k
    · rw [onp hy e1, onp hz e2] at k
      exact absurd k (lt_irrefl _)
    · exact k.2
    · exact absurd ⟨k.1, e1.trans e2.symm⟩ hn
  rw [xe] at srt
  have hsn : ∀ {z w}, Popped S.lin z → w ∈ S'.lin.queue → IsL S'.lin w → Ret c S'.lin w z →
      w ∈ S.lin.queue ∧ w ≠ e ∧ IsL S.lin w ∧ Ret c S.lin w z := fun {z w} hz hw wL hr =>
    settled_new s h1 h2 hz (fun hh => hj z hz hh) hw wL hr
  have lxq : ∀ {w}, w ∈ S.lin.queue → lx c S.lin e ≤ lx c S.lin w := fun k => l.le _ k
  have lxp : ∀ {y}, Popped S.lin y → lx c S.lin y ≤ lx c S.lin e := fun k => h1.ple _ k.1.1 k.2
  have stA : ∀ {y}, y ∈ A → ∀ w ∈ S'.lin.queue, IsL S'.lin w → ¬ Ret c S'.lin w y := by
    intro y hy w hw wL hr
    have P := pT (Or.inl hy)
    obtain ⟨a1, a2, a3, a4⟩ := hsn P hw wL hr
    by_cases hn : Ret c S.lin y e
    · exact three P a3 (by rintro rfl; exact P.2 a1) a2 hn ⟨a4.1.trans hn.1, a4.2.trans hn.2⟩
    · have q1 := lxq a1
      have q2 := lxp P
      have q3 := a4.2
      have q4 : lx c S.lin y = lx c S.lin e := by linarith
      have k1 := slope P.1 he q4 rfl hn ((List.pairwise_append.mp srt).2.2 y hy e (by simp))
      have k2 := l.slopeL hl w a1 (isLeft_iff.mpr a3.2) (by linarith)
      unfold Sweep.slope at k2
      rw [toLeft_left hl, toLeft_left (isLeft_iff.mpr a3.2)] at k2
      have k3 := a4.1.1
      rw [k3] at k2
      exact absurd k1 (not_lt.mpr k2)
  have sw : S'.lin.sweepLine = A ++ e :: B := by rw [lp.ext2.sweepLine, lp.ext1.sweepLine]; rfl
  have pe : Popped S'.lin e := s.popped.mpr (Or.inr ⟨rfl, he⟩)
  have mem : ∀ {y}, y ∈ A ++ e :: B → y = e ∨ Popped S.lin y := by
    intro y hy
    simp only [List.mem_append, List.mem_cons] at hy
    rcases hy with k | k | k
    · exact Or.inr (pT (Or.inl k))
    · exact Or.inl k
    · exact Or.inr (pT (Or.inr k))
  have memc : ∀ {y}, y ∈ A ++ e :: B → y < cnt S.lin := by
    intro y hy
    rcases mem hy with rfl | k
    · exact he.1
    · exact k.1.1
  have nd : (A ++ e :: B).Nodup := lp.inv1.tnd
  -- the predecessor in the sweep line
  have gen : ∀ {L1 L2 : List ℕ} {x : ℕ}, A ++ e :: B = L1 ++ x :: L2 → lx c S.lin x = lx c S.lin e →
      (Free c S.lin (S.lin.start e) ∨ ∀ y, L1.getLast? = some y → y ≠ e → ¬ c.On (S.lin.sid y) (S.lin.start e)) →
      (∀ y, L1.getLast? = some y → ∀ w ∈ S'.lin.queue, IsL S'.lin w → ¬ Ret c S'.lin w y) →
      Adj c S'.lin x L1.getLast? := by
    intro L1 L2 x hL hx fr st
    have xm : x ∈ A ++ e :: B := by rw [hL]; simp
    have xc := memc xm
    have xl : lx c S'.lin x = lx c S.lin e := by rw [s.lx xc, hx]
    have nd' := nd
    rw [hL] at nd'
    have srt' := srt
    rw [hL] at srt'
    refine ⟨fun y hy => ?_, st, fun z hz z1 z2 z3 => ?_⟩
    · have my : y ∈ L1 := List.mem_of_getLast? hy
      have yx : y ≠ x := (List.nodup_append.mp nd').2.2 y my x (by simp)
      have ym : y ∈ A ++ e :: B := by rw [hL]; simp [my]
      have ypop : Popped S'.lin y := by
        rcases mem ym with rfl | k
        · exact pe
        · exact s.popped.mpr (Or.inl k)
      have yc := memc ym
      refine ⟨ypop, yx, ?_, ?_, ?_⟩
      · rw [xl]; exact h2.ple y ypop.1.1 ypop.2
      · rw [xl]
        rcases mem ym with rfl | k
        · have := h2.wf.lr y ypop.1
          rw [s.lx yc] at this
          exact this
        · refine keep_rx g h1 s h2 k.1 (le_refl _) (Or.inr ?_) (hr y ?_)
          · exact fr.elim (fun q => q y k.1) fun q o => absurd o (q y hy (ne k))
          rw [lp.sweep]
          simp only [List.mem_append, List.mem_cons] at ym ⊢
          rcases ym with q | q | q
          · exact Or.inl q
          · exact absurd q (ne k)
          · exact Or.inr q
      · rw [xl, s.sid y yc, s.sid x xc]
        exact (List.pairwise_append.mp srt').2.2 y my x (by simp)
    · rw [xl] at z1 z2 z3
      have zT : z ∈ S'.lin.sweepLine := h2.mem_of hz.1 hz.2 z2
      rw [sw] at zT
      have zc := memc zT
      rw [s.sid z zc, s.sid x xc] at z3
      rw [hL] at zT
      obtain ⟨y, y1, y2⟩ := sorted_adj (R := fun x y => BelowE c (S.lin.sid x) (S.lin.sid y) (lx c S.lin e))
        (fun x => belowE_irrefl) (fun x y k => belowE_asymm k) srt' zT z3
      refine ⟨y, y1, ?_⟩
      have ym : y ∈ A ++ e :: B := by rw [hL]; simp [List.mem_of_getLast? y1]
      rw [xl, s.sid z zc, s.sid y (memc ym)]
      exact y2
  -- nothing passes after the step
  have free' : Free c S'.lin (S.lin.start e) := by
    rcases a with a | ⟨_, ⟨i, u, v, t⟩, a⟩
    · exact a.free.step s h2
    · intro y hy hon hint
      have hp : S.lin.start e ∈ c.P := h1.pP
      have yT : y ∈ S'.lin.sweepLine := h2.mem_of hy (fun k => by have := h2.qge y k; have := hint.1; linarith) hint.2
      have eT : e ∈ S'.lin.sweepLine := by rw [sw]; simp
      have el : lx c S'.lin e = c.X (S.lin.start e) := s.lx he.1
      have fe : c.f (S'.lin.sid e) (c.X (S.lin.start e)) = (S.lin.start e).y := by
        rw [s.sid e he.1]; exact (h1.wf.onL e he).symm
      have hye : y ≠ e := by
        rintro rfl
        have := hint.1
        rw [el] at this
        exact lt_irrefl _ this
      obtain ⟨a', ha', b, hb, k1, k2, k3, k4, k5⟩ := h2.walk (t := c.X (S.lin.start e)) (w := (S.lin.start e).y)
        (fun _ k => h2.lx_le k) (fun _ k => h2.le_rx k) (fun x => x = e) eT yT fe hon.symm rfl hye
      change a' = e at k3
      change ¬ b = e at k4
      rw [k3] at k5
      have bm := hb
      rw [sw] at bm
      have bP : Popped S.lin b := (mem bm).resolve_left k4
      have bl : lx c S'.lin b < c.X (S.lin.start e) := by rw [s.lx bP.1.1]; exact a b bP
      have lB := h2.isL hb
      have ii : ∀ {z}, IsL S'.lin z → c.On (S'.lin.sid z) (S.lin.start e) → lx c S'.lin z < c.X (S.lin.start e) →
          c.X (S.lin.start e) ≤ rx c S'.lin z → S'.lin.sid z = i := by
        intro z hz o z1 z2
        have := h2.wf.inA z hz
        rcases t.all _ (h2.wf.sidLt z hz) (h2.wf.thru hz o z1.le z2) with k | k | k
        · exact k
        · rw [k, t.atu] at this; exact absurd z1 (not_lt.mpr this)
        · rw [k, t.atv] at this; exact absurd z1 (not_lt.mpr this)
      have sb := ii lB k2.symm bl (h2.le_rx hb)
      have sy := ii hy hon hint.1 hint.2.le
      have hby : b = y := by
        by_contra hne
        have q1 := h2.le_rx hb
        have q2 := hint.1
        have q3 := hint.2
        rcases h2.wf.same lB hy (sb.trans sy.symm) hne with k | k <;> linarith
      subst hby
      by_cases hc : CollE c S'.lin e b
      · have lre := h2.wf.lr e (s.isL he)
        have q3 := hint.2
        rcases k5.1 hc with (z | z) | ⟨z, _⟩ <;> linarith
      · have lre := h2.wf.lr e (s.isL he)
        exact (k5.2 hc _ (fe.trans k2.symm) el.le (by linarith) bl.le hint.2.le).2 hint
  have irr : ∀ x y, Popped S.lin x → ¬ Ret c S.lin x e → bel S x = BR op S (some y) → Irr c S.lin x y →
      bel S' x = BR op S' (some y) ∧ Irr c S'.lin x y := by
    intro x y hxS hn b1 b2
    refine ⟨?_, b2.step g h1 s h2 hxS hj (fun _ => hn) fun _ k1 k2 => ?_⟩
    · rw [(keep hxS hn).below, b1]
      have hny : ¬ Ret c S.lin y e := fun z => b2.settled e l.mem he z.symm
      exact ((keep b2.pop hny).BR op h1.wf h2.wf b2.pop.1 (s.isL b2.pop.1) (s.sid y b2.pop.1.1)).symm
    · rcases a with a | ⟨_, _, a⟩
      · have xl : lx c S.lin x = lx c S.lin e := le_antisymm (lxp hxS) k1
        rw [xl] at k2
        have := slope he hxS.1 rfl xl (fun z => hn z.symm) k2
        rcases a.ord x hxS xl e l.mem he rfl with q | ⟨y', _, q, _, q'⟩
        · linarith
        · rw [q', b2.unique q]
      · exact absurd (a x hxS) (not_lt.mpr k1)
  have irrE : (∃ i u v, Tee c (S.lin.start e) i u v) → (∀ x, Popped S.lin x → lx c S.lin x < lx c S.lin e) →
      ∀ y, A.getLast? = some y → c.On (S.lin.sid y) (S.lin.start e) → Irr c S'.lin e y := by
    rintro ⟨i, u, v, t⟩ a y hy hon
    have yA : y ∈ A := List.mem_of_getLast? hy
    have yP := pT (Or.inl yA)
    have yT : y ∈ S.lin.sweepLine := by rw [lp.sweep]; simp [yA]
    have yT' : y ∈ S'.lin.sweepLine := by rw [sw]; simp [yA]
    have el : lx c S'.lin e = c.X (S.lin.start e) := s.lx he.1
    have yl := a y yP
    have sy : S.lin.sid y = i := by
      have := h1.wf.inA y yP.1
      rcases t.all _ (h1.wf.sidLt y yP.1) (h1.wf.thru yP.1 hon yl.le (hr y yT).le) with k | k | k
      · exact k
      · rw [k, t.atu] at this; exact absurd yl (not_lt.mpr this)
      · rw [k, t.atv] at this; exact absurd yl (not_lt.mpr this)
    have be := (List.pairwise_append.mp srt).2.2 y yA e (by simp)
    refine ⟨s.popped.mpr (Or.inl yP), ?_, ?_, ⟨u, v, ?_⟩, stA yA, fun z hz z1 z2 z3 => ?_, fun hc => ?_, fun z hz z1 => ?_⟩
    · rw [el]
      refine le_antisymm (not_lt.mp fun k => free' y (s.isL yP.1) ?_ ⟨?_, k⟩) (h2.le_rx yT')
      · rw [s.sid y yP.1.1]; exact hon
      · rw [s.lx yP.1.1]; exact yl
    · rw [el, s.sid y yP.1.1, s.sid e he.1]; exact be
    · rw [s.start e he.1, s.sid y yP.1.1, sy]; exact t
    · rw [el] at z1 z2 z3 ⊢
      have zT : z ∈ S'.lin.sweepLine := h2.mem_of hz.1 hz.2 z2
      rw [sw] at zT
      have zc := memc zT
      rw [s.sid z zc, s.sid e he.1] at z3
      obtain ⟨y1, q1, q2⟩ := sorted_adj (R := fun x y => BelowE c (S.lin.sid x) (S.lin.sid y) (lx c S.lin e))
        (fun x => belowE_irrefl) (fun x y k => belowE_asymm k) srt zT z3
      rw [hy, Option.some_inj] at q1
      subst q1
      rw [s.sid z zc, s.sid y yP.1.1]
      exact q2.imp_left fun q => by rw [q]
    · obtain ⟨w, lw, sw', w1, w2⟩ := h2.wf.after t.ilt t.strict.2.1.le t.strict.2.2
      have wl : lx c S'.lin w = c.X (S.lin.start e) := by
        by_contra k
        exact free' w lw (by rw [sw']; exact t.strict.1) ⟨lt_of_le_of_ne w1 k, w2⟩
      refine ⟨w, ?_, lw, by rw [sw', s.sid y yP.1.1, sy], wl.trans el.symm⟩
      by_contra hq
      rcases s.popped.mp ⟨lw, hq⟩ with k | ⟨rfl, k⟩
      · have := a w k
        rw [s.lx k.1.1] at wl
        rw [wl, xe] at this
        exact lt_irrefl _ this
      · rw [s.sid w k.1] at sw'
        rw [sy, sw'] at be
        exact belowE_irrefl be
    · rw [el] at z1
      by_cases hc : z < cnt S.lin
      · left
        rw [s.sid e he.1, s.sid z hc]
        rw [s.lx hc] at z1
        by_cases ze : z = e
        · rw [ze]
        have zq : z ∈ S.lin.queue := by
          by_contra k
          have := a z ⟨⟨hc, hz.2⟩, k⟩
          rw [z1] at this
          exact lt_irrefl _ this
        have k := l.slopeL hl z zq (isLeft_iff.mpr hz.2) z1
        unfold Sweep.slope at k
        rwa [toLeft_left hl, toLeft_left (isLeft_iff.mpr hz.2)] at k
      · right
        obtain ⟨y0, hy0, ey, hint⟩ := new_at s h1 h2 hz (not_lt.mp hc) z1
        have hs : S'.lin.start z = S.lin.start e := (g.eq_iff (h2.wf.memP z hz.1) h1.pP).mpr z1
        have on := h2.wf.onL z hz
        rw [hs, ← ey] at on
        rw [← ey, s.sid y yP.1.1, sy]
        exact t.eq (h1.wf.sidLt y0 hy0) (h1.wf.strict hy0 on hint)
  have ord' : ∀ x, Popped S'.lin x → lx c S'.lin x = c.X (S.lin.start e) → ∀ w ∈ S'.lin.queue, IsL S'.lin w →
      lx c S'.lin w = c.X (S.lin.start e) → c.K (S'.lin.sid x) ≤ c.K (S'.lin.sid w) ∨
      ∃ y, bel S' x = BR op S' (some y) ∧ Irr c S'.lin x y ∧ ¬ CollE c S'.lin y x ∧ S'.lin.sid w = S'.lin.sid y := by
    rcases a with a | ⟨_, t, a⟩
    · refine ord_step g a h1 s h2 l rfl fun x y hx hb b2 hn => irr x y hx ?_ hb b2
      exact b2.noRet h1.wf hx.1 he hn (ne hx).symm
    · intro x hx xp w hw wL wp
      obtain rfl : x = e := by
        rcases s.popped.mp hx with k | ⟨k, _⟩
        · have := a x k
          rw [s.lx k.1.1, xe] at xp
          rw [xp] at this
          exact absurd this (lt_irrefl _)
        · exact k
      by_cases hc : w < cnt S.lin
      · left
        obtain ⟨k1, k2⟩ := s.queued hc hw
        rw [s.lx hc] at wp
        rw [s.sid w hc, s.sid x he.1]
        have k := l.slopeL hl w k1 (isLeft_iff.mpr wL.2) wp
        unfold Sweep.slope at k
        rwa [toLeft_left hl, toLeft_left (isLeft_iff.mpr wL.2)] at k
      · by_cases hK : c.K (S'.lin.sid x) ≤ c.K (S'.lin.sid w)
        · exact Or.inl hK
        right
        rw [not_le, s.sid x he.1] at hK
        obtain ⟨y0, hy0, sy0, hint⟩ := new_at s h1 h2 wL (not_lt.mp hc) wp
        have hs : S'.lin.start w = S.lin.start x := (g.eq_iff (h2.wf.memP w wL.1) h1.pP).mpr wp
        have on0 : c.On (S.lin.sid y0) (S.lin.start x) := by
          rw [sy0, ← hs]; exact h2.wf.onL w wL
        have fx : c.f (S.lin.sid x) (lx c S.lin x) = (S.lin.start x).y := onp he rfl
        have f0 : c.f (S.lin.sid y0) (lx c S.lin x) = (S.lin.start x).y := on0.symm
        rw [← sy0] at hK
        have b0 : BelowE c (S.lin.sid y0) (S.lin.sid x) (lx c S.lin x) := Or.inl (Or.inr ⟨f0.trans fx.symm, hK⟩)
        have yT : y0 ∈ S.lin.sweepLine := h1.mem_of hy0 (fun k => by have := l.le y0 k; have := hint.1; rw [xe] at this; linarith) hint.2
        have yT2 : y0 ∈ A ++ x :: B := by
          rw [lp.sweep] at yT
          simp only [List.mem_append, List.mem_cons] at yT ⊢
          rcases yT with k | k
          · exact Or.inl k
          · exact Or.inr (Or.inr k)
        obtain ⟨y1, q1, q2⟩ := sorted_adj (R := fun x y => BelowE c (S.lin.sid x) (S.lin.sid y) (lx c S.lin _))
          (fun x => belowE_irrefl) (fun x y k => belowE_asymm k) srt yT2 b0
        have y1A : y1 ∈ A := List.mem_of_getLast? q1
        have y1P := pT (Or.inl y1A)
        have y1T : y1 ∈ S.lin.sweepLine := by rw [lp.sweep]; simp [y1A]
        have le : ∀ {j k}, BelowE c j k (lx c S.lin x) → c.f j (lx c S.lin x) ≤ c.f k (lx c S.lin x) := by
          rintro j k ((z | z) | z)
          · exact z.le
          · exact z.1.le
          · exact (z.1.f_eq _).le
        have on1 : c.On (S.lin.sid y1) (S.lin.start x) := by
          have z1 := le ((List.pairwise_append.mp srt).2.2 y1 y1A x (by simp))
          have z2 : c.f (S.lin.sid y0) (lx c S.lin x) ≤ c.f (S.lin.sid y1) (lx c S.lin x) := by
            rcases q2 with rfl | q2
            · exact le_refl _
            · exact le q2
          rw [fx] at z1
          rw [f0] at z2
          exact le_antisymm z2 z1
        have ir := irrE t a y1 q1 on1
        obtain ⟨i, u, v, t⟩ := t
        have ii : ∀ {z}, IsL S.lin z → c.On (S.lin.sid z) (S.lin.start x) → lx c S.lin z < c.X (S.lin.start x) →
            c.X (S.lin.start x) ≤ rx c S.lin z → S.lin.sid z = i := by
          intro z hz o z1 z2
          have := h1.wf.inA z hz
          rcases t.all _ (h1.wf.sidLt z hz) (h1.wf.thru hz o z1.le z2) with k | k | k
          · exact k
          · rw [k, t.atu] at this; exact absurd z1 (not_lt.mpr this)
          · rw [k, t.atv] at this; exact absurd z1 (not_lt.mpr this)
        have s0 := ii hy0 on0 hint.1 hint.2.le
        have s1 := ii y1P.1 on1 (a y1 y1P) (hr y1 y1T).le
        refine ⟨y1, by rw [m.belE, q1], ir, fun hc => ?_, ?_⟩
        · unfold CollE at hc
          rw [s.sid y1 y1P.1.1, s.sid x he.1, s1, ← s0] at hc
          exact absurd hK (by rw [hc.1]; exact lt_irrefl _)
        · rw [← sy0, s.sid y1 y1P.1.1, s0, s1]
  refine ⟨free', ord', fun x hx => ?_⟩
  rcases s.popped.mp hx with hxS | ⟨rfl, _⟩
  · by_cases hn : Ret c S.lin x e
    · have fr : Free c S.lin (S.lin.start e) := (frx x hxS).resolve_left fun k => by
        rw [hn.2, xe] at k; exact lt_irrefl _ k
      rcases lp.adjacent g h1 l rfl hl hxS hn with k | k
      · obtain ⟨A', rfl⟩ : ∃ A', A = A' ++ [x] := by
          obtain ⟨A', hA'⟩ := List.getLast?_eq_some_iff.mp k
          exact ⟨A', hA'⟩
        refine ⟨A'.getLast?, ?_, Or.inl <| gen (L2 := e :: B) (by simp) hn.2 (Or.inl fr) fun y hy => stA (by simp [List.mem_of_getLast? hy])⟩
        cases hu : A'.getLast? with
        | some u => exact m.belB A' x rfl hn u hu
        | none =>
          have : A' = [] := List.getLast?_eq_none_iff.mp hu
          subst this
          rw [m.belB0 x rfl hn]
          obtain ⟨y?, b1, b2 | ⟨y, rfl, b2⟩⟩ := adj x hxS
          swap
          · exfalso
            have hb := b2.below
            rw [hn.2] at hb
            have := (List.pairwise_append.mp srt).2.2 x (by simp) e (by simp)
            by_cases hc : CollE c S.lin y x
            · have hy : S.lin.sid y < c.F ∧ ¬ S.lin.sid x < c.F := by
                rcases hb with k | k
                · exact absurd hc (aboveR_not_coll k)
                · exact k.2
              rcases this with k | k
              · exact aboveR_not_coll k hn.1
              · exact hy.2 k.2.1
            · exact b2.noRet h1.wf hxS.1 he hc (ne hxS).symm hn
          rw [b1]
          cases y? with
          | none => rfl
          | some y =>
            exfalso
            obtain ⟨k1, k2, k3, k4, k5⟩ := b2.pop y rfl
            rw [hn.2] at k4 k5
            have yT : y ∈ S.lin.sweepLine := h1.mem_of k1.1 k1.2 k4
            rw [lp.sweep] at yT
            have yB : y ∈ B := by simpa [k2] using yT
            have := (List.pairwise_append.mp srt).2.2 x (by simp) y (by simp [yB])
            exact belowE_asymm k5 this
      · obtain ⟨B', rfl⟩ : ∃ B', B = x :: B' := by
          cases B with
          | nil => simp at k
          | cons z B' => simp at k; exact ⟨B', by rw [k]⟩
        have gl : (A ++ [e]).getLast? = some e := by simp
        refine ⟨some e, m.belA x rfl hn.symm, Or.inl ?_⟩
        rw [← gl]
        refine gen (L2 := B') (by simp) hn.2 (Or.inl fr) fun y hy w hw wL hr => ?_
        rw [gl, Option.some_inj] at hy
        subst hy
        have r1 : Ret c S'.lin e x := (s.ret he.1 hxS.1.1).mpr hn.symm
        obtain ⟨a1, a2, a3, a4⟩ := hsn hxS hw wL ⟨hr.1.trans r1.1, hr.2.trans r1.2⟩
        exact three hxS a3 (by rintro rfl; exact hxS.2 a1) a2 hn ⟨a4.1.trans hn.1, a4.2.trans hn.2⟩
    · obtain ⟨y?, b1, b2 | ⟨y, rfl, b2⟩⟩ := adj x hxS
      · by_cases hi : ∃ y, bel S x = BR op S (some y) ∧ Irr c S.lin x y
        · obtain ⟨y, q1, q2⟩ := hi
          obtain ⟨r1, r2⟩ := irr x y hxS hn q1 q2
          exact ⟨some y, r1, Or.inr ⟨y, rfl, r2⟩⟩
        refine ⟨y?, ?_, Or.inl <| b2.step g h1 s h2 hxS (frx x hxS) hj fun _ k1 k2 => ?_⟩
        · rw [(keep hxS hn).below, b1]
          cases y? with
          | none => rfl
          | some y =>
            have k1 := (b2.pop y rfl).1
            have hny : ¬ Ret c S.lin y e := fun z => b2.settled y rfl e l.mem he z.symm
            exact ((keep k1 hny).BR op h1.wf h2.wf k1.1 (s.isL k1.1) (s.sid y k1.1.1)).symm
        · have xl : lx c S.lin x = lx c S.lin e := le_antisymm (lxp hxS) k1
          rcases a with a | ⟨_, _, a⟩
          · rw [xl] at k2
            have := slope he hxS.1 rfl xl (fun z => hn z.symm) k2
            rcases a.ord x hxS xl e l.mem he rfl with q | ⟨y, q1, q2, _⟩
            · linarith
            · exact hi ⟨y, q1, q2⟩
          · exact absurd (a x hxS) (by rw [xl]; exact lt_irrefl _)
      · obtain ⟨r1, r2⟩ := irr x y hxS hn b1 b2
        exact ⟨some y, r1, Or.inr ⟨y, rfl, r2⟩⟩
  · refine ⟨A.getLast?, m.belE, ?_⟩
    have fin := gen (L2 := B) rfl rfl
    rcases a with a | ⟨_, t, a⟩
    · exact Or.inl <| fin (Or.inl a.free) fun y hy => stA (List.mem_of_getLast? hy)
    · by_cases hi : ∃ y, A.getLast? = some y ∧ c.On (S.lin.sid y) (S.lin.start x)
      · obtain ⟨y, q1, q2⟩ := hi
        exact Or.inr ⟨y, q1, irrE t a y q1 q2⟩
      · exact Or.inl <| fin (Or.inr fun y hy _ ho => hi ⟨y, hy, ho⟩) fun y hy => stA (List.mem_of_getLast? hy)

/-- The state before the next event. -/
theorem AInv.advance (nt : Sparse c) (g : c.Good) (h : SInv c op inte S p) (a : AInv c op S p)
    (hpop : S.lin.popEvent = some e) : AInv c op S (S.lin.start e) ∨ isLeft e = true ∧
      AInv c op S p ∧ (∃ i u v, Tee c (S.lin.start e) i u v) ∧ ∀ x, Popped S.lin x → lx c S.lin x < lx c S.lin e := by
  have l := least_of_pop g h.inv.wf h.inv.qlt hpop
  have he := h.inv.qlt e l.mem
  rcases eq_or_lt_of_le (h.inv.qge e l.mem) with k | k
  · have : p = S.lin.start e := (g.eq_iff h.inv.pP (h.inv.wf.memP e he)).mpr k
    rw [← this]; exact Or.inl a
  · have old : ∀ x, Popped S.lin x → lx c S.lin x < lx c S.lin e := fun x hx =>
      lt_of_le_of_lt (h.inv.ple x hx.1.1 hx.2) k
    rcases h.inv.free nt g l.mem l.le k with f | ⟨f1, f2⟩
    · refine Or.inl ⟨f, fun x hx q => ?_, a.adj⟩
      have := old x hx
      have q' : lx c S.lin x = lx c S.lin e := q
      linarith
    · exact Or.inr ⟨f1, a, f2, old⟩

theorem AInv.step (nt : Sparse c) (g : c.Good) (h : SInv c op inte S p) (a : AInv c op S p)
    (hpop : S.lin.popEvent = some e) : AInv c op (S.process op e).1 (S.lin.start e) := by
  have a := a.advance nt g h hpop
  by_cases hl : isLeft e = true
  · exact AInv.step_left g h (a.imp_right And.right) hpop hl
  · rcases a with a | ⟨k, _⟩
    · exact a.step_right g h hpop hl
    · exact absurd k hl

end

end Rene.Sweep
