import Verif.Lemmas.Sweep.ShpSel
import Verif.Lemmas.Sweep.ShapeEdges

/-! # The selection of the shaped sweep -/

namespace Rene.Sweep
open Rene.Face Finset Spec

theorem xorSum_bit (g : Segment → Bool) : ∀ l : List Segment, xorSum g l = bit (∑ i ∈ range l.length, z (g (segAt l i)))
  | [] => rfl
  | s :: l => by
    rw [List.length_cons, sum_range_succ', bit_add, xorSum]
    have e : ∀ i, segAt (s :: l) (i + 1) = segAt l i := fun i => by
      unfold segAt
      rw [List.getD_cons_succ]
    have e0 : segAt (s :: l) 0 = s := rfl
    simp only [e, e0]
    rw [← xorSum_bit g l, bit_z, Bool.xor_comm]

open Classical in
theorem xorSum_set (g : Segment → Bool) : ∀ {l : List Segment}, l.Nodup → xorSum g l = bit (∑ s ∈ l.toFinset, z (g s))
  | [], _ => rfl
  | s :: l, h => by
    obtain ⟨h1, h2⟩ := List.nodup_cons.mp h
    rw [List.toFinset_cons, sum_insert (by simpa using h1), bit_add, bit_z, ← xorSum_set g h2, xorSum]

theorem xorSum_sub {g : Segment → Bool} {full kept : List Segment} (h1 : full.Nodup) (h2 : kept.Nodup)
    (sub : ∀ s ∈ kept, s ∈ full) (off : ∀ s ∈ full, s ∉ kept → g s = false) : xorSum g full = xorSum g kept := by
  classical
  rw [xorSum_set g h1, xorSum_set g h2]
  congr 1
  symm
  refine sum_subset (fun s hs => ?_) fun s hs hn => ?_
  · rw [List.mem_toFinset] at *
    exact sub s hs
  · rw [List.mem_toFinset] at *
    rw [off s hs hn]; rfl

section
variable {ε : ℚ} {first second : List Segment}

/-- The sum over the segments of an operand. -/
theorem sum_first (h : Segment → Bool) : bit (∑ j ∈ range (ctxOf first second ε).N,
    z (opB (ctxOf first second ε) j && h (segAt (first ++ second) j))) = xorSum h first := by
  have hN : (ctxOf first second ε).N = first.length + second.length := List.length_append
  rw [hN, sum_range_add, xorSum_bit]
  have e1 : ∀ j ∈ range first.length, z (opB (ctxOf first second ε) j && h (segAt (first ++ second) j)) =
      z (h (segAt first j)) := by
    intro j hj
    have hj := mem_range.mp hj
    have : opB (ctxOf first second ε) j = true := decide_eq_true hj
    rw [this, Bool.true_and, segAt_append_left hj]
  have e2 : ∀ j ∈ range second.length, z (opB (ctxOf first second ε) (first.length + j) &&
      h (segAt (first ++ second) (first.length + j))) = 0 := by
    intro j _
    have : opB (ctxOf first second ε) (first.length + j) = false :=
      decide_eq_false (not_lt.mpr (Nat.le_add_right first.length j))
    rw [this]; rfl
  rw [sum_congr rfl e1, sum_congr rfl e2, sum_const_zero, add_zero]

theorem sum_second (h : Segment → Bool) : bit (∑ j ∈ range (ctxOf first second ε).N,
    z ((!opB (ctxOf first second ε) j) && h (segAt (first ++ second) j))) = xorSum h second := by
  have hN : (ctxOf first second ε).N = first.length + second.length := List.length_append
  rw [hN, sum_range_add, xorSum_bit]
  have e1 : ∀ j ∈ range first.length, z ((!opB (ctxOf first second ε) j) && h (segAt (first ++ second) j)) = 0 := by
    intro j hj
    have hj := mem_range.mp hj
    have : opB (ctxOf first second ε) j = true := decide_eq_true hj
    rw [this]; rfl
  have e2 : ∀ j ∈ range second.length, z ((!opB (ctxOf first second ε) (first.length + j)) &&
      h (segAt (first ++ second) (first.length + j))) = z (h (segAt second j)) := by
    intro j _
    have : opB (ctxOf first second ε) (first.length + j) = false :=
      decide_eq_false (not_lt.mpr (Nat.le_add_right first.length j))
    rw [this, segAt_append_right (Nat.le_add_right _ _), Nat.add_sub_cancel_left]; rfl
  rw [sum_congr rfl e1, sum_congr rfl e2, sum_const_zero, zero_add]

/-- The segments of one of the operands. -/
def kept (first second : List Segment) (T : Bool) : List Segment := if T then first else second

theorem sum_kept (T : Bool) (h : Segment → Bool) : bit (∑ j ∈ range (ctxOf first second ε).N,
    z ((opB (ctxOf first second ε) j == T) && h (segAt (first ++ second) j))) = xorSum h (kept first second T) := by
  cases T
  · have := sum_second (ε := ε) (first := first) (second := second) h
    simpa [kept] using this
  · have := sum_first (ε := ε) (first := first) (second := second) h
    simpa [kept] using this

/-- A parity of indices as a parity of segments. -/
theorem par_filter (T : Bool) {q : Segment → Bool} {D : Finset ℕ}
    (hD : ∀ j, j ∈ D ↔ j < (ctxOf first second ε).N ∧ q (segAt (first ++ second) j) = true) :
    par (ctxOf first second ε) T D = xorSum q (kept first second T) := by
  rw [← sum_kept (ε := ε)]
  have e : D = (range (ctxOf first second ε).N).filter fun j => q (segAt (first ++ second) j) = true := by
    ext j
    rw [hD, mem_filter, mem_range]
  unfold par
  rw [e, sum_filter]
  congr 1
  refine sum_congr rfl fun j _ => ?_
  by_cases h : q (segAt (first ++ second) j) = true
  · rw [if_pos h, h, Bool.and_true]
  · rw [if_neg h, bool_false h, Bool.and_false]; rfl

theorem par_low (T : Bool) (t : ℚ) (i : ℕ) : par (ctxOf first second ε) T (low (ctxOf first second ε) t i) =
    xorSum (gs ε (segAt (first ++ second) i) t) (kept first second T) := by
  refine par_filter T fun j => ?_
  rw [mem_low, gs_iff]
  rfl
end

/-- Both operands of a shaped operation: the edges `full1` and `full2` of shapes with the insides `R1` and `R2`, the
ones processed being `first` and `second`. -/
structure Two (ε : ℚ) (first second full1 full2 : List Segment) (R1 R2 : Set Point) (stop : Point → Bool) : Prop where
  s1 : Setting ε first second first second full2 R2 true stop
  s2 : Setting ε first second second first full1 R1 false stop

/-- The final state of the sweep. -/
structure Fin (ε : ℚ) (op : ShpOp) (first second full1 full2 : List Segment) (R1 R2 : Set Point)
    (stop : Point → Bool) (S : Shp) (M : Mix) (acc : List ℕ) : Prop where
  two : Two ε first second full1 full2 R1 R2 stop
  h1 : MFinal (ctxOf first second ε) .linearShapedDifference true (qAt ε first second full2 true) (okAt ε first second first stop)
    stop (fun _ => true) M acc
  h2 : MFinal (ctxOf first second ε) .linearShapedDifference false (qAt ε first second full1 false)
    (okAt ε first second second stop) stop (fun _ => true) M acc
  rel : Rel S M
  fin : SFinal (ctxOf first second ε) op (inteOf (Mix.init first second)) stop S

/-- The abscissa is not after all the points processed. -/
def Within (c : Ctx) (stop : Point → Bool) (t : ℚ) : Prop := ∃ v ∈ c.P, stop v = false ∧ t ≤ c.X v

open Classical in
/-- The piece of a segment at `t` is selected. -/
noncomputable def selAt (c : Ctx) (S : Shp) (t : ℚ) (i : ℕ) : Bool :=
  decide (∃ x, IsL S.lin x ∧ S.lin.sid x = i ∧ lx c S.lin x ≤ t ∧ t < rx c S.lin x ∧ flag S.fromResult x = true)

theorem Wf.piece_unique {c : Ctx} {S : Lin} (w : Wf c S) {x y : ℕ} (hx : IsL S x) (hy : IsL S y)
    (e : S.sid x = S.sid y) {t : ℚ} (h1 : lx c S x ≤ t) (h2 : t < rx c S x) (h3 : lx c S y ≤ t) (h4 : t < rx c S y) :
    x = y := by
  by_contra hne
  rcases w.noOv x y hx hy hne (by unfold SameOp; rw [e]) (by unfold CollE; rw [e]; exact .refl _) with k | k <;> linarith

theorem Wf.piece {c : Ctx} {S : Lin} (w : Wf c S) {i : ℕ} (hi : i < c.N) {t : ℚ} (h : Spans c i t) :
    ∃ x, IsL S x ∧ S.sid x = i ∧ lx c S x ≤ t ∧ t < rx c S x := by
  obtain ⟨x, hx, e, h1, h2⟩ := w.cover' hi h
  exact ⟨x, hx, e, h1, h2⟩

section
variable {ε : ℚ} {op : ShpOp} {first second full1 full2 : List Segment} {R1 R2 : Set Point} {stop : Point → Bool}
  {S : Shp} {M : Mix} {acc : List ℕ}

open Classical in
theorem selAt_eq {c : Ctx} (w : Wf c S.lin) {x : ℕ} (hx : IsL S.lin x) {t : ℚ} (h1 : lx c S.lin x ≤ t)
    (h2 : t < rx c S.lin x) : selAt c S t (S.lin.sid x) = flag S.fromResult x := by
  refine bool_eq_of_iff ?_
  unfold selAt
  rw [decide_eq_true_iff]
  constructor
  · rintro ⟨y, hy, e, a, b, k⟩
    rw [w.piece_unique hx hy e.symm h1 h2 a b]; exact k
  · intro k
    exact ⟨x, hx, rfl, h1, h2, k⟩

theorem Fin.wf (h : Fin ε op first second full1 full2 R1 R2 stop S M acc) : Wf (ctxOf first second ε) S.lin := by
  rw [h.rel.lin]; exact h.h1.wf

theorem Fin.good (h : Fin ε op first second full1 full2 R1 R2 stop S M acc) : (ctxOf first second ε).Good := h.two.s1.good

theorem Fin.begun (h : Fin ε op first second full1 full2 R1 R2 stop S M acc) {x : ℕ} (hx : IsL S.lin x) {t : ℚ}
    (h1 : lx (ctxOf first second ε) S.lin x ≤ t) (hr : Within (ctxOf first second ε) stop t) :
    stop (S.lin.start x) = false := by
  obtain ⟨v, vP, vs, k⟩ := hr
  exact h.two.s1.mono.false ((h.good.le_iff (h.wf.memP x hx.1) vP).mpr (le_trans h1 k)) vs

theorem Fin.popped (h : Fin ε op first second full1 full2 R1 R2 stop S M acc) {x : ℕ} (hx : IsL S.lin x)
    (hs : stop (S.lin.start x) = false) : Popped S.lin x :=
  ⟨hx, fun k => by rw [h.fin.queue x k] at hs; cases hs⟩

theorem Fin.sel (h : Fin ε op first second full1 full2 R1 R2 stop S M acc) {x : ℕ} (hx : IsL S.lin x)
    (hs : stop (S.lin.start x) = false) :
    flag S.fromResult x = sdet op (opB (ctxOf first second ε) (S.lin.sid x)) (flag S.other x) (S.kind x) := by
  obtain ⟨p, hp⟩ := h.fin.inv
  rw [hp.fr x hx.2 (h.popped hx hs), sdetects_eq]
  congr 1
  unfold Lin.leftFirst opB
  rw [h.wf.fc]

theorem Fin.kind_none (h : Fin ε op first second full1 full2 R1 R2 stop S M acc) {x : ℕ} (hx : IsL S.lin x)
    (hs : stop (S.lin.start x) = false) :
    S.kind x = .none ↔ ∀ y, IsL S.lin y → Ret (ctxOf first second ε) S.lin x y → y = x := by
  have k := h.h1.ov x (by rw [← h.rel.lin]; exact hx) (by rw [← h.rel.lin]; exact hs)
  rw [← h.rel.lin] at k
  have e : flag M.overlap x = decide (S.kind x ≠ .none) := by
    rw [← h.rel.kinds]
    unfold flag Shp.kind
    rw [List.getD_eq_getElem?_getD, List.getD_eq_getElem?_getD, List.getElem?_map]
    cases S.kinds[x / 2]? <;> rfl
  rw [e, decide_eq_true_iff] at k
  constructor
  · intro q y hy hr
    by_contra hne
    exact k.mpr ⟨y, hy, hne, hr⟩ q
  · intro q
    by_contra hne
    obtain ⟨y, hy, hn, hr⟩ := k.mp hne
    exact hn (q y hy hr)

/-- Pieces of overlapping segments. -/
theorem Fin.ret (h : Fin ε op first second full1 full2 R1 R2 stop S M acc) {x y : ℕ} (hx : IsL S.lin x)
    (hy : IsL S.lin y) (hc : CollE (ctxOf first second ε) S.lin x y) {t : ℚ}
    (hr : Within (ctxOf first second ε) stop t)
    (h1 : lx (ctxOf first second ε) S.lin x ≤ t) (h2 : t < rx (ctxOf first second ε) S.lin x)
    (h3 : lx (ctxOf first second ε) S.lin y ≤ t) (h4 : t < rx (ctxOf first second ε) S.lin y) :
    Ret (ctxOf first second ε) S.lin x y := by
  have hsx := h.begun hx h1 hr
  have hsy := h.begun hy h3 hr
  have no := h.h1.noInt
  rw [← h.rel.lin] at no
  have w := h.wf
  refine ⟨hc, ?_⟩
  rcases lt_trichotomy (lx (ctxOf first second ε) S.lin x) (lx (ctxOf first second ε) S.lin y) with q | q | q
  · exact absurd ⟨q, lt_of_le_of_lt h3 h2⟩ (no _ (w.memP y hy.1) hsy x hx ((w.onL y hy).coll hc.symm))
  · exact q
  · exact absurd ⟨q, lt_of_le_of_lt h1 h4⟩ (no _ (w.memP x hx.1) hsx y hy ((w.onL x hx).coll hc))

theorem Fin.ok_op (h : Fin ε op first second full1 full2 R1 R2 stop S M acc) {t : ℚ} {i : ℕ} {T : Bool}
    (hr : Within (ctxOf first second ε) stop t) (hi : i < (ctxOf first second ε).N)
    (hs : Spans (ctxOf first second ε) i t) (hb : opB (ctxOf first second ε) i = T) :
    okAt ε first second (kept first second T) stop t := by
  refine ⟨⟨segAt (first ++ second) i, ?_, hs.1⟩, hr⟩
  cases T
  · exact h.two.s2.opT hi hb
  · exact h.two.s1.opT hi hb

/-- The parity of all the edges of the second operand. -/
theorem Two.xfull2 (h : Two ε first second full1 full2 R1 R2 stop) {t : ℚ} (hok : okAt ε first second first stop t)
    {g : Segment → Bool} (hg : ∀ s, g s = true → sSpans ε s t) : xorSum g full2 = xorSum g second := by
  refine xorSum_sub (nodup_of_noOverlap h.s1.noOvFull) (nodup_of_noOverlap h.s2.noOvLin) h.s1.sub fun s hs hn => ?_
  refine bool_false fun q => ?_
  have sp := hg s q
  rcases h.s1.drop s hs with k | k | k
  · exact hn k
  · obtain ⟨⟨u, hu, a⟩, _⟩ := hok
    have := k u hu
    have := sp.2
    linarith
  · obtain ⟨_, v, vP, vs, a⟩ := hok
    have := k v vP vs
    have := sp.1
    linarith

theorem Two.xfull1 (h : Two ε first second full1 full2 R1 R2 stop) {t : ℚ} (hok : okAt ε first second second stop t)
    {g : Segment → Bool} (hg : ∀ s, g s = true → sSpans ε s t) : xorSum g full1 = xorSum g first := by
  refine xorSum_sub (nodup_of_noOverlap h.s2.noOvFull) (nodup_of_noOverlap h.s1.noOvLin) h.s2.sub fun s hs hn => ?_
  refine bool_false fun q => ?_
  have sp := hg s q
  rcases h.s2.drop s hs with k | k | k
  · exact hn k
  · obtain ⟨⟨u, hu, a⟩, _⟩ := hok
    have := k u hu
    have := sp.2
    linarith
  · obtain ⟨_, v, vP, vs, a⟩ := hok
    have := k v vP vs
    have := sp.1
    linarith

theorem Fin.rule (h : Fin ε op first second full1 full2 R1 R2 stop S M acc) {t : ℚ}
    (hr : Within (ctxOf first second ε) stop t) :
    Rule (ctxOf first second ε) op t (selAt (ctxOf first second ε) S t) := by
  have w := h.wf
  have hlin := h.rel.lin
  set c := ctxOf first second ε with hc
  constructor
  · intro i hi hs hal
    obtain ⟨x, hx, rfl, x1, x2⟩ := w.piece hi hs
    have hst := h.begun hx x1 hr
    have hk : S.kind x = .none := by
      refine (h.kind_none hx hst).mpr fun y hy hret => ?_
      have b := h.h1.collB x y (by rw [← hlin]; exact hx) (by rw [← hlin]; exact hy) (by rw [← hlin]; exact hst)
        (by rw [← hlin]; exact hret)
      rw [← hlin] at b
      have a := w.inA y hy
      have e := hret.2
      have hsy : Spans c (S.lin.sid y) t := ⟨by linarith, lt_of_lt_of_le x2 b⟩
      have es := hal _ (w.sidLt y hy) hsy hret.1
      by_contra hne
      rcases w.noOv x y hx hy (Ne.symm hne) (by unfold SameOp; rw [es]) hret.1 with k | k
      · have := w.lr x hx; linarith
      · have := w.lr y hy; linarith
    rw [selAt_eq w hx x1 x2, h.sel hx hst, hk, par_low, par_low]
    rcases hb : opB c (S.lin.sid x) with _ | _
    · have al := h.two.s2.along h.h2 (x := x) (by rw [← hlin]; exact hx) (by rw [← hlin]; exact hb) (τ := t)
        (by rw [← hlin]; exact x1) (by rw [← hlin]; exact x2) hr (by rw [← hlin]; exact hst)
      rw [← hlin, ← h.rel.other] at al
      have e : flag S.other x = xorSum (gs ε (segAt (first ++ second) (S.lin.sid x)) t) first := by
        rw [al]
        unfold qAt
        rw [h.two.xfull1 (h.ok_op hr hi hs hb) fun s k => (gb_iff.mp k).1]
        refine xorSum_congr fun s hs => bool_eq_of_iff ?_
        rw [gb_iff, gs_iff]
        refine and_congr_right fun sp => or_iff_left ?_
        rintro ⟨cl, _⟩
        obtain ⟨k, hk, ko, rfl⟩ := h.two.s1.atT hs
        have ek : k = S.lin.sid x := hal k hk sp ⟨cl.1.symm, cl.2.symm⟩
        rw [ek] at ko
        rw [ko] at hb; cases hb
      rw [e]
      show sdet op false _ _ = (opv op (xorSum _ first) _ ^^ opv op (xorSum _ first ^^ false) (_ ^^ !false))
      generalize xorSum (gs ε (segAt (first ++ second) (S.lin.sid x)) t) first = a
      generalize xorSum (gs ε (segAt (first ++ second) (S.lin.sid x)) t) (kept first second false) = b
      cases op <;> cases a <;> cases b <;> rfl
    · have al := h.two.s1.along h.h1 (x := x) (by rw [← hlin]; exact hx) (by rw [← hlin]; exact hb) (τ := t)
        (by rw [← hlin]; exact x1) (by rw [← hlin]; exact x2) hr (by rw [← hlin]; exact hst)
      rw [← hlin, ← h.rel.other] at al
      have e : flag S.other x = xorSum (gs ε (segAt (first ++ second) (S.lin.sid x)) t) second := by
        rw [al]
        unfold qAt
        rw [h.two.xfull2 (h.ok_op hr hi hs hb) fun s k => (gb_iff.mp k).1]
        refine xorSum_congr fun s hs => bool_eq_of_iff ?_
        rw [gb_iff, gs_iff]
        refine and_congr_right fun sp => or_iff_left ?_
        rintro ⟨_, k⟩; cases k
      rw [e]
      show sdet op true _ _ = (opv op _ (xorSum _ second) ^^ opv op (_ ^^ true) (xorSum _ second ^^ !true))
      generalize xorSum (gs ε (segAt (first ++ second) (S.lin.sid x)) t) second = b
      generalize xorSum (gs ε (segAt (first ++ second) (S.lin.sid x)) t) (kept first second true) = a
      cases op <;> cases a <;> cases b <;> rfl
  · intro i hi j hj bi bj si sj hcl
    obtain ⟨x, hx, rfl, x1, x2⟩ := w.piece hi si
    obtain ⟨y, hy, rfl, y1, y2⟩ := w.piece hj sj
    have hsx := h.begun hx x1 hr
    have hsy := h.begun hy y1 hr
    have hret := h.ret hx hy hcl hr x1 x2 y1 y2
    have hne : x ≠ y := by
      rintro rfl
      rw [bi] at bj; cases bj
    obtain ⟨p, hp⟩ := h.fin.inv
    have kx := hp.kind x y (h.popped hx hsx) (h.popped hy hsy) hne hret
    have ky := hp.kind y x (h.popped hy hsy) (h.popped hx hsx) hne.symm hret.symm
    rw [kindOf_comm] at ky
    rw [selAt_eq w hx x1 x2, selAt_eq w hy y1 y2, h.sel hx hsx, h.sel hy hsy, kx, ky]
    have bi' : opB (ctxOf first second ε) (S.lin.sid x) = true := bi
    have bj' : opB (ctxOf first second ε) (S.lin.sid y) = false := bj
    rw [bi', bj', par_low, par_low]
    have d1 : inteOf (Mix.init first second) (S.lin.sid x) =
        !xorSum (gs ε (segAt (first ++ second) (S.lin.sid x)) t) first := by
      rw [mix_init_interior hi, ← h.two.xfull1 (h.ok_op hr hj sj bj) fun s k => (gs_iff.mp k).1]
      exact h.two.s2.edges.dir_right h.two.s2.noOvFull (h.two.s2.sub _ (h.two.s1.opT hi bi)) si fun s _ => gs_iff
    have d2 : inteOf (Mix.init first second) (S.lin.sid y) =
        !xorSum (gs ε (segAt (first ++ second) (S.lin.sid x)) t) second := by
      rw [mix_init_interior hj, ← h.two.xfull2 (h.ok_op hr hi si bi) fun s k => (gs_iff.mp k).1]
      refine h.two.s1.edges.dir_right h.two.s1.noOvFull (h.two.s1.sub _ (h.two.s2.opT hj bj)) sj fun s _ => ?_
      rw [gs_iff]
      refine and_congr_right fun _ => ?_
      unfold sAbove
      have hcl' : sColl ε (segAt (first ++ second) (S.lin.sid x)) (segAt (first ++ second) (S.lin.sid y)) := hcl
      rw [hcl'.f_eq t, hcl'.1]
    unfold kindOf
    rw [d1, d2]
    show (sdet op true _ _ ^^ sdet op false _ _) = (opv op (xorSum _ first) (xorSum _ second) ^^ opv op (!xorSum _ first) (!xorSum _ second))
    generalize xorSum (gs ε (segAt (first ++ second) (S.lin.sid x)) t) first = a
    generalize xorSum (gs ε (segAt (first ++ second) (S.lin.sid x)) t) second = b
    generalize flag S.other x = o1
    generalize flag S.other y = o2
    cases op <;> cases a <;> cases b <;> cases o1 <;> cases o2 <;> rfl
end

end Rene.Sweep
