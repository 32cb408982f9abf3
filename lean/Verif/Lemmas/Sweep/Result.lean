import Verif.Lemmas.Sweep.Build
import Verif.Lemmas.Reg

/-! From the final state of a run to the point set of the reduced events. -/

namespace Rene
open Spec

/-- `groupby` on a list where equal keys are contiguous: groups are exactly the fibres of the key. -/
theorem groupby_spec {α : Type} [DecidableEq α] (key : ℕ → α) (R : ℕ → ℕ → Prop) :
    ∀ l : List ℕ, l.Pairwise R →
    (∀ x ∈ l, ∀ y ∈ l, ∀ z ∈ l, R x y → R y z → key x = key z → key y = key x) →
    (∀ g ∈ groupby key l, g.2 = l.filter (fun x => decide (key x = g.1)) ∧ g.2 ≠ []) ∧
    ((groupby key l).map Prod.fst).Nodup ∧
    (∀ x ∈ l, key x ∈ (groupby key l).map Prod.fst) ∧
    (∀ h t, l = h :: t → ((groupby key l).map Prod.fst).head? = some (key h)) := by
  intro l
  induction l with
  | nil => intro _ _; simp [groupby]
  | cons e rest ih =>
    intro hp hc
    obtain ⟨i1, i2, i3, i4⟩ := ih (List.pairwise_cons.mp hp).2
      (fun x hx y hy z hz => hc x (List.mem_cons_of_mem _ hx) y (List.mem_cons_of_mem _ hy) z
        (List.mem_cons_of_mem _ hz))
    unfold groupby
    cases hg : groupby key rest with
    | nil =>
      rw [hg] at i3
      have hr : rest = [] := by
        cases rest with
        | nil => rfl
        | cons a r => exact absurd (i3 a List.mem_cons_self) (by simp)
      subst hr
      simp
    | cons kg groups =>
      obtain ⟨k, gr⟩ := kg
      rw [hg] at i1 i2 i3 i4
      obtain ⟨h, t, hr⟩ : ∃ h t, rest = h :: t := by
        cases rest with
        | nil => simp [groupby] at hg
        | cons h t => exact ⟨h, t, rfl⟩
      have hk : k = key h := by
        have := i4 h t hr
        simpa using this
      have i2' : k ∉ groups.map Prod.fst ∧ (groups.map Prod.fst).Nodup := by
        rw [List.map_cons, List.nodup_cons] at i2; exact i2
      simp only
      by_cases he : key e = k
      · rw [if_pos he]
        refine ⟨?_, ?_, ?_, ?_⟩
        · intro g hgm
          rcases List.mem_cons.mp hgm with rfl | hgm
          · refine ⟨?_, by simp⟩
            simp only
            rw [List.filter_cons, if_pos (by simpa using he), ← (i1 (k, gr) List.mem_cons_self).1]
          · have := i1 g (List.mem_cons_of_mem _ hgm)
            refine ⟨?_, this.2⟩
            rw [List.filter_cons, if_neg, ← this.1]
            simp only [decide_eq_true_eq]
            intro z
            exact i2'.1 (by rw [← he, z]; exact List.mem_map_of_mem hgm)
        · exact i2
        · intro x hx
          rcases List.mem_cons.mp hx with rfl | hx
          · simp [he]
          · exact i3 x hx
        · intro h' t' e'
          cases e'
          simp [he]
      · rw [if_neg he]
        have hnot : ∀ x ∈ rest, key x ≠ key e := by
          intro x hx z
          apply he
          rw [hk]
          rw [hr] at hx
          rcases List.mem_cons.mp hx with rfl | hx'
          · exact z.symm
          · have r1 : R e h := (List.pairwise_cons.mp hp).1 h (by rw [hr]; exact List.mem_cons_self)
            have r2 : R h x := by
              have := (List.pairwise_cons.mp hp).2
              rw [hr] at this
              exact (List.pairwise_cons.mp this).1 x hx'
            have hh : h ∈ e :: rest := List.mem_cons_of_mem _ (by rw [hr]; exact List.mem_cons_self)
            exact (hc e List.mem_cons_self h hh x
              (List.mem_cons_of_mem _ (by rw [hr]; exact List.mem_cons_of_mem _ hx')) r1 r2 z.symm).symm
        refine ⟨?_, ?_, ?_, ?_⟩
        · intro g hgm
          rcases List.mem_cons.mp hgm with rfl | hgm
          · refine ⟨?_, by simp⟩
            simp only
            rw [List.filter_cons, if_pos (by simp), List.filter_eq_nil_iff.mpr]
            intro a ha
            simpa using hnot a ha
          · have := i1 g hgm
            refine ⟨?_, this.2⟩
            rw [List.filter_cons, if_neg, ← this.1]
            simp only [decide_eq_true_eq]
            intro z
            obtain ⟨y, hy⟩ := List.exists_mem_of_ne_nil _ this.2
            rw [this.1, List.mem_filter] at hy
            exact hnot y hy.1 ((by simpa using hy.2 : key y = g.1).trans z.symm)
        · rw [List.map_cons, List.nodup_cons]
          refine ⟨?_, i2⟩
          intro z
          obtain ⟨g, hgm, e'⟩ := List.mem_map.mp z
          have := i1 g hgm
          obtain ⟨y, hy⟩ := List.exists_mem_of_ne_nil _ this.2
          rw [this.1, List.mem_filter] at hy
          exact hnot y hy.1 ((by simpa using hy.2 : key y = g.1).trans e')
        · intro x hx
          rcases List.mem_cons.mp hx with rfl | hx
          · simp
          · exact List.mem_cons_of_mem _ (i3 x hx)
        · intro h' t' e'
          cases e'
          rfl

namespace Sweep

variable {c : Ctx} {stop : Point → Bool} {S : Lin} {acc : List ℕ}

/-- The point is on the piece. -/
def At (c : Ctx) (S : Lin) (e : ℕ) (q : Point) : Prop :=
  c.On (S.sid e) q ∧ lx c S e ≤ c.X q ∧ c.X q ≤ rx c S e

theorem mem_piece (w : Wf c S) {e : ℕ} (he : IsL S e) (q : Point) :
    q ∈ seg (S.start e) (S.end e) ↔ At c S e q := mem_seg_on (w.onL e he) (w.onR e he) (w.lr e he)

theorem end_mem (w : Wf c S) {e : ℕ} (he : IsL S e) : S.end e ∈ c.P := w.memP _ (w.oppLt e he.1)

theorem start_le_end (g : c.Good) (w : Wf c S) {e : ℕ} (he : IsL S e) : S.start e < S.end e :=
  (g.lt_iff (w.memP e he.1) (end_mem w he)).mpr (w.lr e he)

/-- A point of two pieces, not a relevant one: same line, and it is inside both. -/
theorem at_coll (g : c.Good) (w : Wf c S) {x y : ℕ} (hx : IsL S x) (hy : IsL S y) {q : Point} (hq : q ∉ c.P)
    (ax : At c S x q) (ay : At c S y q) : CollE c S x y := by
  by_contra hc
  refine hq (g.cross _ (w.sidLt x hx) _ (w.sidLt y hy) hc q ax.1 ay.1 ?_ ?_ ?_ ?_)
  · exact (w.inA x hx).trans ax.2.1
  · exact ax.2.2.trans (w.inB x hx)
  · exact (w.inA y hy).trans ay.2.1
  · exact ay.2.2.trans (w.inB y hy)

theorem at_int (w : Wf c S) {x : ℕ} (hx : IsL S x) {q : Point} (hq : q ∉ c.P) (ax : At c S x q) :
    Int c S x (c.X q) := by
  refine ⟨lt_of_le_of_ne ax.2.1 fun z => hq ?_, lt_of_le_of_ne ax.2.2 fun z => hq ?_⟩
  · rw [← (w.onL x hx).eq_of_X ax.1 z]; exact w.memP x hx.1
  · rw [ax.1.eq_of_X (w.onR x hx) z]; exact end_mem w hx

/-- Stopping is monotone along the sweep. -/
def Mono (stop : Point → Bool) : Prop := ∀ p q : Point, p ≤ q → stop p = true → stop q = true

theorem Mono.false (hs : Mono stop) {p q : Point} (h : p ≤ q) (hq : stop q = false) : stop p = false := by
  by_contra k
  rw [hs p q h (by simpa using k)] at hq
  cases hq

/-- Two collinear pieces with a common inner abscissa coincide, if one of them was completed. -/
theorem same_of_int (g : c.Good) (hs : Mono stop) (h : Final c stop S acc) {x y : ℕ} (hx : IsL S x)
    (hy : IsL S y) (hc : CollE c S x y) {t : ℚ} (ix : Int c S x t) (iy : Int c S y t)
    (hst : stop (S.end x) = false) : S.start x = S.start y ∧ S.end x = S.end y := by
  have w := h.wf
  have ex := end_mem w hx
  have ey := end_mem w hy
  have sx := w.memP x hx.1
  have sy := w.memP y hy.1
  have e : rx c S x = rx c S y := by
    rcases lt_trichotomy (rx c S x) (rx c S y) with k | k | k
    · exact absurd ⟨iy.1.trans ix.2, k⟩ (h.noInt _ ex hst y hy ((w.onR x hx).coll hc))
    · exact k
    · have : stop (S.end y) = false := hs.false ((g.le_iff ey ex).mpr k.le) hst
      exact absurd ⟨ix.1.trans iy.2, k⟩ (h.noInt _ ey this x hx ((w.onR y hy).coll hc.symm))
  have ee : S.end x = S.end y := (g.eq_iff ex ey).mpr e
  refine ⟨?_, ee⟩
  rcases lt_trichotomy (lx c S x) (lx c S y) with k | k | k
  · have : stop (S.start y) = false := hs.false (start_le_end g w hy).le (ee ▸ hst)
    exact absurd ⟨k, (iy.1.trans ix.2)⟩ (h.noInt _ sy this x hx ((w.onL y hy).coll hc.symm))
  · exact (g.eq_iff sx sy).mpr k
  · have : stop (S.start x) = false := hs.false (start_le_end g w hx).le hst
    exact absurd ⟨k, (ix.1.trans iy.2)⟩ (h.noInt _ sx this y hy ((w.onL x hx).coll hc))

/-- Two pieces with a common point which is not a relevant one coincide. -/
theorem same_of_at (g : c.Good) (hs : Mono stop) (h : Final c stop S acc) {x y : ℕ} (hx : IsL S x)
    (hy : IsL S y) {q : Point} (hq : q ∉ c.P) (ax : At c S x q) (ay : At c S y q)
    (hst : stop (S.end x) = false) : S.endpointsOf x = S.endpointsOf y := by
  obtain ⟨k1, k2⟩ := same_of_int g hs h hx hy (at_coll g h.wf hx hy hq ax ay) (at_int h.wf hx hq ax)
    (at_int h.wf hy hq ay) hst
  unfold Lin.endpointsOf
  rw [k1, k2]

theorem groups (g : c.Good) (hs : Mono stop) (h : Final c stop S acc) :
    (∀ g ∈ groupby S.endpointsOf acc, g.2 = acc.filter (fun x => decide (S.endpointsOf x = g.1)) ∧ g.2 ≠ []) ∧
    ((groupby S.endpointsOf acc).map Prod.fst).Nodup ∧
    (∀ x ∈ acc, S.endpointsOf x ∈ (groupby S.endpointsOf acc).map Prod.fst) := by
  obtain ⟨k1, k2, k3, _⟩ := groupby_spec S.endpointsOf _ acc h.sorted (by
    intro x hx y hy z hz rxy ryz hk
    have hxL := (h.mem x).mp hx
    have hyL := (h.mem y).mp hy
    have hzL := (h.mem z).mp hz
    unfold Lin.endpointsOf at hk
    obtain ⟨ks, ke⟩ := Prod.mk.inj hk
    have w := h.wf
    have exz : rx c S x = rx c S z := by unfold rx; rw [ke]
    have lxz : lx c S x = lx c S z := by unfold lx; rw [ks]
    have hcxz : CollE c S x z := by
      refine Ctx.coll_of_two (w.lr x hxL.1).ne ?_ ?_
      · have := w.onL x hxL.1; have := w.onL z hzL.1
        unfold Ctx.On at *; rw [← ks] at this; unfold lx; linarith
      · have := w.onR x hxL.1; have := w.onR z hzL.1
        unfold Ctx.On at *; rw [← ke] at this; unfold rx; linarith
    have hr : rx c S x = rx c S y := by rcases rxy with k | ⟨k, _⟩ <;> rcases ryz with k' | ⟨k', _⟩ <;> linarith
    have hK : c.K (S.sid y) = c.K (S.sid x) := by
      have := hcxz.1
      rcases rxy with k | ⟨k, k1⟩
      · linarith
      · rcases ryz with k' | ⟨k', k2⟩
        · linarith
        · linarith
    have ee : S.end x = S.end y := (g.eq_iff (end_mem w hxL.1) (end_mem w hyL.1)).mpr hr
    have hc : CollE c S x y := by
      refine ⟨hK.symm, ?_⟩
      have o1 := w.onR x hxL.1
      have o2 := w.onR y hyL.1
      rw [← ee] at o2
      unfold Ctx.On Ctx.f at o1 o2
      rw [hK] at o2
      linarith
    -- a common inner abscissa
    have l1 := w.lr x hxL.1
    have l2 := w.lr y hyL.1
    have m : max (lx c S x) (lx c S y) < rx c S x := max_lt l1 (by rw [hr]; exact l2)
    obtain ⟨k1, k2⟩ := same_of_int g hs h hxL.1 hyL.1 hc
      (t := (max (lx c S x) (lx c S y) + rx c S x) / 2)
      ⟨by have := le_max_left (lx c S x) (lx c S y); linarith, by linarith⟩
      ⟨by have := le_max_right (lx c S x) (lx c S y); linarith, by rw [← hr]; linarith⟩ hxL.2
    unfold Lin.endpointsOf
    rw [k1, k2])
  exact ⟨k1, k2, k3⟩

theorem isFirst_iff (w : Wf c S) {x : ℕ} (hx : IsL S x) : S.isFirst x = true ↔ S.sid x < c.F := by
  unfold Lin.isFirst Lin.leftFirst
  rw [toLeft_left (isLeft_iff.mpr hx.2), decide_eq_true_eq, w.fc]

/-- The point is on an original segment of the first operand. -/
def InF (c : Ctx) (q : Point) : Prop := ∃ i < c.N, i < c.F ∧ c.On i q ∧ c.X (c.A i) ≤ c.X q ∧ c.X q ≤ c.X (c.B i)
/-- The point is on an original segment of the second operand. -/
def InS (c : Ctx) (q : Point) : Prop := ∃ i < c.N, ¬ i < c.F ∧ c.On i q ∧ c.X (c.A i) ≤ c.X q ∧ c.X q ≤ c.X (c.B i)

/-- The operations on membership. -/
def _root_.Rene.LinOp.holds (op : LinOp) (a b : Prop) : Prop :=
  match op with
  | .intersection => a ∧ b
  | .union => a ∨ b
  | .difference => a ∧ ¬ b
  | .symmetricDifference => (a ∧ ¬ b) ∨ (b ∧ ¬ a)

/-- The group of a completed piece is kept iff the operation holds for its inner points. -/
theorem keeps_iff (g : c.Good) (hs : Mono stop) (h : Final c stop S acc) (op : LinOp) {x : ℕ} (hx : x ∈ acc)
    {q : Point} (hq : q ∉ c.P) (ax : At c S x q) :
    op.keeps S (acc.filter (fun y => decide (S.endpointsOf y = S.endpointsOf x))) = true ↔
      op.holds (InF c q) (InS c q) := by
  have w := h.wf
  have hxL := (h.mem x).mp hx
  set G := acc.filter (fun y => decide (S.endpointsOf y = S.endpointsOf x)) with hG
  have memG : ∀ y, y ∈ G ↔ IsL S y ∧ At c S y q := by
    intro y
    rw [hG, List.mem_filter, decide_eq_true_eq]
    constructor
    · rintro ⟨hy, e⟩
      have hyL := (h.mem y).mp hy
      refine ⟨hyL.1, ?_⟩
      rw [← mem_piece w hyL.1]
      unfold Lin.endpointsOf at e
      obtain ⟨e1, e2⟩ := Prod.mk.inj e
      rw [e1, e2, mem_piece w hxL.1]
      exact ax
    · rintro ⟨hy, ay⟩
      have e := same_of_at g hs h hxL.1 hy hq ax ay hxL.2
      refine ⟨(h.mem y).mpr ⟨hy, ?_⟩, e.symm⟩
      unfold Lin.endpointsOf at e
      rw [← (Prod.mk.inj e).2]; exact hxL.2
  have hxG : x ∈ G := (memG x).mpr ⟨hxL.1, ax⟩
  have ndG : G.Nodup := h.nd.filter _
  have two : ∀ y ∈ G, ∀ z ∈ G, y ≠ z → ¬ SameOp c S y z := by
    intro y hy z hz hyz hop
    obtain ⟨y1, y2⟩ := (memG y).mp hy
    obtain ⟨z1, z2⟩ := (memG z).mp hz
    have := at_int w y1 hq y2
    have := at_int w z1 hq z2
    rcases w.noOv y z y1 z1 hyz hop (at_coll g w y1 z1 hq y2 z2) with k | k
    · have := this.1; have := ‹Int c S y (c.X q)›.2; linarith
    · have := this.2; have := ‹Int c S y (c.X q)›.1; linarith
  have fst : (∃ y ∈ G, S.sid y < c.F) ↔ InF c q := by
    constructor
    · rintro ⟨y, hy, k⟩
      obtain ⟨y1, y2⟩ := (memG y).mp hy
      exact ⟨S.sid y, w.sidLt y y1, k, y2.1, (w.inA y y1).trans y2.2.1, y2.2.2.trans (w.inB y y1)⟩
    · rintro ⟨i, hi, k, o, a, b⟩
      obtain ⟨y, hy, e, l, r⟩ := w.cover i hi (c.X q) a b
      exact ⟨y, (memG y).mpr ⟨hy, by rw [e]; exact o, l, r⟩, by rw [e]; exact k⟩
  have snd : (∃ y ∈ G, ¬ S.sid y < c.F) ↔ InS c q := by
    constructor
    · rintro ⟨y, hy, k⟩
      obtain ⟨y1, y2⟩ := (memG y).mp hy
      exact ⟨S.sid y, w.sidLt y y1, k, y2.1, (w.inA y y1).trans y2.2.1, y2.2.2.trans (w.inB y y1)⟩
    · rintro ⟨i, hi, k, o, a, b⟩
      obtain ⟨y, hy, e, l, r⟩ := w.cover i hi (c.X q) a b
      exact ⟨y, (memG y).mpr ⟨hy, by rw [e]; exact o, l, r⟩, by rw [e]; exact k⟩
  have len : 2 ≤ G.length ↔ InF c q ∧ InS c q := by
    rw [← fst, ← snd]
    constructor
    · intro hl
      match hGe : G, hl with
      | y :: z :: t, _ =>
        have hyz : y ≠ z := by
          rintro rfl
          exact absurd List.mem_cons_self (List.nodup_cons.mp ndG).1
        have := two y List.mem_cons_self z (List.mem_cons_of_mem _ List.mem_cons_self) hyz
        unfold SameOp at this
        by_cases k : S.sid y < c.F
        · refine ⟨⟨y, List.mem_cons_self, k⟩, z, List.mem_cons_of_mem _ List.mem_cons_self, fun k' => this ?_⟩
          exact ⟨fun _ => k', fun _ => k⟩
        · refine ⟨⟨z, List.mem_cons_of_mem _ List.mem_cons_self, ?_⟩, y, List.mem_cons_self, k⟩
          by_contra k'
          exact this ⟨fun z => absurd z k, fun z => absurd z k'⟩
    · rintro ⟨⟨y, hy, k⟩, z, hz, k'⟩
      have hyz : y ≠ z := by rintro rfl; exact k' k
      match hGe : G with
      | [] => simp at hy
      | [a] =>
        simp only [List.mem_singleton] at hy hz
        exact absurd (hy.trans hz.symm) hyz
      | a :: b :: t => simp
  have one : InF c q ∨ InS c q := by
    rw [← fst, ← snd]
    by_cases k : S.sid x < c.F
    · exact Or.inl ⟨x, hxG, k⟩
    · exact Or.inr ⟨x, hxG, k⟩
  cases op with
  | intersection => simp only [LinOp.keeps, LinOp.holds, decide_eq_true_eq]; exact len
  | union => simp only [LinOp.keeps, LinOp.holds, true_iff]; exact one
  | difference =>
    simp only [LinOp.keeps, LinOp.holds, List.all_eq_true]
    have : (∀ y ∈ G, S.isFirst y = true) ↔ ¬ InS c q := by
      rw [← snd]
      constructor
      · rintro k ⟨y, hy, k'⟩
        exact k' ((isFirst_iff w ((memG y).mp hy).1).mp (k y hy))
      · intro k y hy
        rw [isFirst_iff w ((memG y).mp hy).1]
        by_contra k'
        exact k ⟨y, hy, k'⟩
    rw [this]
    constructor
    · intro k; exact ⟨one.resolve_right k, k⟩
    · exact fun k => k.2
  | symmetricDifference =>
    simp only [LinOp.keeps, LinOp.holds, Bool.not_eq_true', decide_eq_false_iff_not, len]
    constructor
    · intro k
      rcases one with k' | k'
      · exact Or.inl ⟨k', fun z => k ⟨k', z⟩⟩
      · exact Or.inr ⟨k', fun z => k ⟨z, k'⟩⟩
    · rintro (⟨_, k⟩ | ⟨_, k⟩) ⟨k1, k2⟩
      · exact k k2
      · exact k k1

/-- Elements of the reduced list. -/
theorem mem_reduce (g : c.Good) (hs : Mono stop) (h : Final c stop S acc) (op : LinOp) (s : Segment) :
    s ∈ op.reduceEvents S acc ↔ ∃ x ∈ acc, s = ⟨S.start x, S.end x⟩ ∧
      op.keeps S (acc.filter (fun y => decide (S.endpointsOf y = S.endpointsOf x))) = true := by
  obtain ⟨k1, _, k3⟩ := groups g hs h
  unfold LinOp.reduceEvents
  rw [List.mem_map]
  constructor
  · rintro ⟨gr, hgr, rfl⟩
    rw [List.mem_filter] at hgr
    obtain ⟨e, ne⟩ := k1 gr hgr.1
    obtain ⟨x, hx⟩ := List.exists_mem_of_ne_nil _ ne
    have hx' := hx
    rw [e, List.mem_filter, decide_eq_true_eq] at hx'
    refine ⟨x, hx'.1, ?_, ?_⟩
    · rw [← hx'.2]; rfl
    · rw [hx'.2, ← e]; exact hgr.2
  · rintro ⟨x, hx, rfl, hk⟩
    obtain ⟨gr, hgr, e⟩ := List.mem_map.mp (k3 x hx)
    refine ⟨gr, List.mem_filter.mpr ⟨hgr, ?_⟩, ?_⟩
    · rw [(k1 gr hgr).1, e]; exact hk
    · rw [e]; rfl

/-- The result up to relevant points. -/
theorem reduce_sub (g : c.Good) (hs : Mono stop) (h : Final c stop S acc) (op : LinOp) {q : Point}
    (hq : q ∉ c.P) (hm : q ∈ segsPts (op.reduceEvents S acc)) : op.holds (InF c q) (InS c q) := by
  obtain ⟨s, hsm, hqs⟩ := hm
  obtain ⟨x, hx, rfl, hk⟩ := (mem_reduce g hs h op s).mp hsm
  have hxL := ((h.mem x).mp hx).1
  exact (keeps_iff g hs h op hx hq ((mem_piece h.wf hxL q).mp hqs)).mp hk

theorem reduce_sup (g : c.Good) (hs : Mono stop) (h : Final c stop S acc) (op : LinOp) {q : Point}
    (hq : q ∉ c.P) {i : ℕ} (hi : i < c.N) (ho : c.On i q) (ha : c.X (c.A i) ≤ c.X q)
    (hb : c.X q ≤ c.X (c.B i)) (hst : stop (c.B i) = false) (hop : op.holds (InF c q) (InS c q)) :
    q ∈ segsPts (op.reduceEvents S acc) := by
  have w := h.wf
  obtain ⟨x, hx, e, l, r⟩ := w.cover i hi (c.X q) ha hb
  have ax : At c S x q := ⟨by rw [e]; exact ho, l, r⟩
  have hxa : x ∈ acc := by
    refine (h.mem x).mpr ⟨hx, hs.false ?_ hst⟩
    have := w.inB x hx
    rw [e] at this
    exact (g.le_iff (end_mem w hx) (g.memB i hi)).mpr this
  refine ⟨_, (mem_reduce g hs h op _).mpr ⟨x, hxa, rfl, (keeps_iff g hs h op hxa hq ax).mpr hop⟩, ?_⟩
  exact (mem_piece w hx q).mpr ax

/-- Every result segment is a piece of an original segment. -/
theorem reduce_piece (g : c.Good) (hs : Mono stop) (h : Final c stop S acc) (op : LinOp) {s : Segment}
    (hm : s ∈ op.reduceEvents S acc) : ∃ i < c.N, ∀ q ∈ segPts s,
      c.On i q ∧ c.X (c.A i) ≤ c.X q ∧ c.X q ≤ c.X (c.B i) := by
  obtain ⟨x, hx, rfl, _⟩ := (mem_reduce g hs h op s).mp hm
  have hxL := ((h.mem x).mp hx).1
  refine ⟨S.sid x, h.wf.sidLt x hxL, fun q hq => ?_⟩
  have a := (mem_piece h.wf hxL q).mp hq
  exact ⟨a.1, (h.wf.inA x hxL).trans a.2.1, a.2.2.trans (h.wf.inB x hxL)⟩

/-- The result segments meet only at common ends. -/
theorem reduce_noded (g : c.Good) (hs : Mono stop) (h : Final c stop S acc) (op : LinOp) :
    FullyNoded (op.reduceEvents S acc) := by
  have w := h.wf
  constructor
  · intro s hsm
    obtain ⟨x, hx, rfl, _⟩ := (mem_reduce g hs h op s).mp hsm
    exact (start_le_end g w ((h.mem x).mp hx).1).ne
  · obtain ⟨k1, k2, k3⟩ := groups g hs h
    unfold LinOp.reduceEvents
    rw [List.pairwise_map, List.pairwise_filter]
    have := List.pairwise_map.mp k2
    refine this.imp_of_mem ?_
    intro a b ha hb hne _ _
    obtain ⟨ea, na⟩ := k1 a ha
    obtain ⟨eb, nb⟩ := k1 b hb
    obtain ⟨x, hx⟩ := List.exists_mem_of_ne_nil _ na
    obtain ⟨y, hy⟩ := List.exists_mem_of_ne_nil _ nb
    rw [ea, List.mem_filter, decide_eq_true_eq] at hx
    rw [eb, List.mem_filter, decide_eq_true_eq] at hy
    rw [← hx.2, ← hy.2] at hne ⊢
    have hxL := (h.mem x).mp hx.1
    have hyL := (h.mem y).mp hy.1
    have key : ∀ q, At c S x q → At c S y q → q ∈ c.P := by
      intro q ax ay
      by_contra hq
      exact hne (same_of_at g hs h hxL.1 hyL.1 hq ax ay hxL.2)
    have ends : ∀ {x}, IsL S x → stop (S.end x) = false → ∀ q ∈ c.P, At c S x q → q = S.start x ∨ q = S.end x := by
      intro x hx hst q hq ax
      have : stop q = false := hs.false ((g.le_iff hq (end_mem w hx)).mpr ax.2.2) hst
      have := h.noInt q hq this x hx ax.1
      unfold Int at this
      rcases eq_or_lt_of_le ax.2.1 with k | k
      · exact Or.inl ((g.eq_iff hq (w.memP x hx.1)).mpr k.symm)
      · rcases eq_or_lt_of_le ax.2.2 with k' | k'
        · exact Or.inr ((g.eq_iff hq (end_mem w hx)).mpr k')
        · exact absurd ⟨k, k'⟩ this
    have main : ∀ q, q ∈ seg (S.start x) (S.end x) → q ∈ seg (S.start y) (S.end y) →
        (q = S.start x ∨ q = S.end x) ∧ (q = S.start y ∨ q = S.end y) := by
      intro q hqx hqy
      have ax := (mem_piece w hxL.1 q).mp hqx
      have ay := (mem_piece w hyL.1 q).mp hqy
      have hq := key q ax ay
      exact ⟨ends hxL.1 hxL.2 q hq ax, ends hyL.1 hyL.2 q hq ay⟩
    refine ⟨?_, main⟩
    rintro p ⟨p1, p2⟩ q ⟨q1, q2⟩
    by_contra hpq
    have lx' := start_le_end g w hxL.1
    have ly' := start_le_end g w hyL.1
    obtain ⟨a1, a2⟩ := main p p1 p2
    obtain ⟨b1, b2⟩ := main q q1 q2
    apply hne
    show (S.start x, S.end x) = (S.start y, S.end y)
    rcases a1 with rfl | rfl <;> rcases b1 with rfl | rfl
    · exact absurd rfl hpq
    · rcases a2 with e | e <;> rcases b2 with e' | e'
      · exact absurd (e.trans e'.symm) hpq
      · rw [e, e']
      · rw [e, e'] at lx'; exact absurd lx' ly'.asymm
      · exact absurd (e.trans e'.symm) hpq
    · rcases a2 with e | e <;> rcases b2 with e' | e'
      · exact absurd (e.trans e'.symm) hpq
      · rw [e, e'] at lx'; exact absurd lx' ly'.asymm
      · rw [e, e']
      · exact absurd (e.trans e'.symm) hpq
    · exact absurd rfl hpq

/-! ### In terms of the operands -/

section
variable {first second : List Segment} {ε : ℚ}

theorem mem_segAt_iff (gd : (ctxOf first second ε).Good) {i : ℕ} (hi' : i < (first ++ second).length) (q : Point) :
    q ∈ segPts (segAt (first ++ second) i) ↔ (ctxOf first second ε).On i q ∧
      (ctxOf first second ε).X ((ctxOf first second ε).A i) ≤ (ctxOf first second ε).X q ∧
      (ctxOf first second ε).X q ≤ (ctxOf first second ε).X ((ctxOf first second ε).B i) := by
  rw [segPts_eq]
  exact mem_seg_on (gd.onA i hi') (gd.onB i hi') (gd.lt i hi')

theorem inF_iff (gd : (ctxOf first second ε).Good) (q : Point) :
    InF (ctxOf first second ε) q ↔ q ∈ segsPts first := by
  constructor
  · rintro ⟨i, hi, k, h⟩
    rw [← mem_segAt_iff gd hi, segAt_append_left k] at h
    exact ⟨_, segAt_mem k, h⟩
  · rintro ⟨s, hs, hq⟩
    obtain ⟨i, hi', rfl⟩ := mem_segAt hs
    have hN : i < (first ++ second).length := by rw [List.length_append]; omega
    refine ⟨i, hN, hi', ?_⟩
    rw [← mem_segAt_iff gd hN, segAt_append_left hi']; exact hq

theorem inS_iff (gd : (ctxOf first second ε).Good) (q : Point) :
    InS (ctxOf first second ε) q ↔ q ∈ segsPts second := by
  constructor
  · rintro ⟨i, hi, k, h⟩
    have hi2 : i < (first ++ second).length := hi
    have k2 : ¬ i < first.length := k
    rw [← mem_segAt_iff gd hi, segAt_append_right (not_lt.mp k)] at h
    rw [List.length_append] at hi2
    exact ⟨_, segAt_mem (by omega), h⟩
  · rintro ⟨s, hs, hq⟩
    obtain ⟨i, hi', rfl⟩ := mem_segAt hs
    have hN : first.length + i < (first ++ second).length := by rw [List.length_append]; omega
    refine ⟨first.length + i, hN, by show ¬ first.length + i < first.length; omega, ?_⟩
    rw [← mem_segAt_iff gd hN, segAt_append_right (by omega)]
    rw [Nat.add_sub_cancel_left]; exact hq

/-- What a run of an operation computes. -/
theorem run_spec (h1 : NoOverlap first) (h2 : NoOverlap second) (op : LinOp) {stop : Point → Bool} (hs : Mono stop) :
    FullyNoded (op.run stop first second) ∧
    (∀ s ∈ op.run stop first second, ∃ t ∈ first ++ second, segPts s ⊆ segPts t) ∧
    ∃ F : List Point,
      (∀ q ∉ F, q ∈ segsPts (op.run stop first second) → op.holds (q ∈ segsPts first) (q ∈ segsPts second)) ∧
      (∀ q ∉ F, ∀ s ∈ first ++ second, q ∈ segPts s → stop (hi s) = false →
        op.holds (q ∈ segsPts first) (q ∈ segsPts second) → q ∈ segsPts (op.run stop first second)) := by
  obtain ⟨ε, gd⟩ := exists_good h1 h2
  have h := (run_final gd hs).1
  unfold LinOp.run
  simp only
  refine ⟨reduce_noded gd hs h op, ?_, (ctxOf first second ε).P.toList, ?_, ?_⟩
  · intro s hm
    obtain ⟨i, hi', k⟩ := reduce_piece gd hs h op hm
    exact ⟨segAt (first ++ second) i, segAt_mem hi', fun q hq => (mem_segAt_iff gd hi' q).mpr (k q hq)⟩
  · intro q hq hm
    rw [Finset.mem_toList] at hq
    have := reduce_sub gd hs h op hq hm
    rwa [inF_iff gd, inS_iff gd] at this
  · intro q hq s hsm hqs hst hop
    rw [Finset.mem_toList] at hq
    obtain ⟨i, hi', rfl⟩ := mem_segAt hsm
    obtain ⟨o, a, b⟩ := (mem_segAt_iff gd hi' q).mp hqs
    refine reduce_sup gd hs h op hq hi' o a b hst ?_
    rw [inF_iff gd, inS_iff gd]; exact hop

end
end Sweep
end Rene
