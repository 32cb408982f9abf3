import Verif.Lemmas.Sweep.ShpEven

/-! # Selected pieces end in the range; the parity of the ones below a point -/

namespace Rene.Sweep
open Rene.Face Finset Spec

/-- The operand ends in the range of the sweep. -/
structure Ends (ε : ℚ) (first second lin kept full : List Segment) (stop : Point → Bool) : Prop where
  hi : ∀ s ∈ kept, stop (hi s) = false
  all : ∀ s ∈ full, s ∈ kept ∨ ∀ t ∈ lin, Xe ε (Sweep.hi s) ≤ Xe ε (lo t)
  reach : ∀ s ∈ full, ∃ v ∈ points (first ++ second), stop v = false ∧ Xe ε (Sweep.hi s) ≤ Xe ε v

/-- Which operands end in the range, depending on the operation. -/
def Close (ε : ℚ) (op : ShpOp) (first second full1 full2 : List Segment) (stop : Point → Bool) : Prop :=
  match op with
  | .difference => Ends ε first second second first full1 stop
  | .intersection => Ends ε first second second first full1 stop ∨ Ends ε first second first second full2 stop
  | _ => Ends ε first second second first full1 stop ∧ Ends ε first second first second full2 stop

section
variable {ε : ℚ} {op : ShpOp} {first second full1 full2 : List Segment} {R1 R2 : Set Point} {stop : Point → Bool}
  {S : Shp} {M : Mix} {acc : List ℕ}

theorem Fin.own (h : Fin ε op first second full1 full2 R1 R2 stop S M acc) {x : ℕ} (hx : IsL S.lin x)
    (k : stop (hi (segAt (first ++ second) (S.lin.sid x))) = false) : stop (S.lin.end x) = false :=
  h.two.s1.mono.false ((h.good.le_iff (end_mem h.wf hx) (h.good.memB _ (h.wf.sidLt x hx))).mpr (h.wf.inB x hx)) k

theorem Fin.overlap_eq (h : Fin ε op first second full1 full2 R1 R2 stop S M acc) (x : ℕ) :
    flag M.overlap x = decide (S.kind x ≠ .none) := by
  rw [← h.rel.kinds]
  unfold flag Shp.kind
  rw [List.getD_eq_getElem?_getD, List.getD_eq_getElem?_getD, List.getElem?_map]
  cases S.kinds[x / 2]? <;> rfl

/-- A selected piece which starts in the range ends there. -/
theorem Fin.closed (h : Fin ε op first second full1 full2 R1 R2 stop S M acc)
    (cl : Close ε op first second full1 full2 stop) {x : ℕ} (hx : IsL S.lin x) (hs : stop (S.lin.start x) = false)
    (hf : flag S.fromResult x = true) : stop (S.lin.end x) = false := by
  have hsid := h.wf.sidLt x hx
  have hlin := h.rel.lin
  have sel := h.sel hx hs
  rw [hf] at sel
  rw [← Bool.not_eq_true]
  intro hend
  have O1 : Ends ε first second second first full1 stop → opB (ctxOf first second ε) (S.lin.sid x) = true → False := by
    intro k b
    rw [h.own hx (k.hi _ (h.two.s1.opT hsid b))] at hend; cases hend
  have O2 : Ends ε first second first second full2 stop → opB (ctxOf first second ε) (S.lin.sid x) = false → False := by
    intro k b
    rw [h.own hx (k.hi _ (h.two.s2.opT hsid b))] at hend; cases hend
  have Q2 : Ends ε first second second first full1 stop → opB (ctxOf first second ε) (S.lin.sid x) = false →
      flag S.other x = false ∧ S.kind x = .none := by
    intro k b
    have := h.two.s2.outer h.h2 (fun s hs => (k.all s hs).imp (fun q => ⟨q, k.hi s q⟩) id) (x := x)
      (by rw [← hlin]; exact hx) (by rw [← hlin]; exact b) (by rw [← hlin]; exact hs) (by rw [← hlin]; exact hend)
    rw [h.overlap_eq, ← h.rel.other] at this
    simpa using this
  have Q1 : Ends ε first second first second full2 stop → opB (ctxOf first second ε) (S.lin.sid x) = true →
      flag S.other x = false ∧ S.kind x = .none := by
    intro k b
    have := h.two.s1.outer h.h1 (fun s hs => (k.all s hs).imp (fun q => ⟨q, k.hi s q⟩) id) (x := x)
      (by rw [← hlin]; exact hx) (by rw [← hlin]; exact b) (by rw [← hlin]; exact hs) (by rw [← hlin]; exact hend)
    rw [h.overlap_eq, ← h.rel.other] at this
    simpa using this
  rcases hb : opB (ctxOf first second ε) (S.lin.sid x) with _ | _
  · rw [hb] at sel
    cases op with
    | difference => obtain ⟨a, b⟩ := Q2 cl hb; rw [a, b] at sel; cases sel
    | intersection =>
      rcases cl with cl | cl
      · obtain ⟨a, b⟩ := Q2 cl hb; rw [a, b] at sel; cases sel
      · exact O2 cl hb
    | union => exact O2 cl.2 hb
    | symmetricDifference => exact O2 cl.2 hb
  · rw [hb] at sel
    cases op with
    | difference => exact O1 cl hb
    | intersection =>
      rcases cl with cl | cl
      · exact O1 cl hb
      · obtain ⟨a, b⟩ := Q1 cl hb; rw [a, b] at sel; cases sel
    | union => exact O1 cl.1 hb
    | symmetricDifference => exact O1 cl.1 hb

/-- The parities of all the edges and of the processed ones below a point give the same value. -/
theorem Two.glue (h : Two ε first second full1 full2 R1 R2 stop) (gl : Glue ε op first second full1 full2 stop) {t : ℚ}
    (hr : Within (ctxOf first second ε) stop t) {g : Segment → Bool} (hg : ∀ s, g s = true → sSpans ε s t) :
    opv op (xorSum g first) (xorSum g second) = opv op (xorSum g full1) (xorSum g full2) := by
  have N : ∀ {kept full : List Segment}, NoOverlap full → NoOverlap kept → (∀ s ∈ kept, s ∈ full) →
      NoLeft ε first second kept full stop → xorSum g full = xorSum g kept := by
    intro kept full h1 h2 sub nl
    refine xorSum_sub (nodup_of_noOverlap h1) (nodup_of_noOverlap h2) sub fun s hs hn => bool_false fun q => ?_
    obtain ⟨v, vP, vs, k⟩ := hr
    rcases nl s hs with q' | q'
    · exact hn q'
    · have a := q' v vP vs
      have b := (hg s q).1
      have k' : t ≤ Xe ε v := k
      linarith
  have N1 : NoLeft ε first second first full1 stop → xorSum g full1 = xorSum g first :=
    N h.s2.noOvFull h.s1.noOvLin h.s2.sub
  have N2 : NoLeft ε first second second full2 stop → xorSum g full2 = xorSum g second :=
    N h.s1.noOvFull h.s2.noOvLin h.s1.sub
  have ex : ∀ l : List Segment, xorSum g l = true → ∃ s ∈ l, g s = true := by
    intro l k
    by_contra q
    rw [xorSum_false fun s hs => bool_false fun e => q ⟨s, hs, e⟩] at k
    cases k
  have F2 : xorSum g first = true → xorSum g full2 = xorSum g second := by
    intro k
    obtain ⟨s, hs, e⟩ := ex _ k
    exact h.xfull2 ⟨⟨s, hs, (hg s e).1⟩, hr⟩ hg
  have F1 : xorSum g second = true → xorSum g full1 = xorSum g first := by
    intro k
    obtain ⟨s, hs, e⟩ := ex _ k
    exact h.xfull1 ⟨⟨s, hs, (hg s e).1⟩, hr⟩ hg
  have L1 : NoLeft ε first second first full1 stop → (op = .difference ∨ op = .intersection) →
      opv op (xorSum g first) (xorSum g second) = opv op (xorSum g full1) (xorSum g full2) := by
    intro k ho
    rw [N1 k]
    rcases hv : xorSum g first with _ | _
    · rcases ho with rfl | rfl <;> rfl
    · rw [F2 hv]
  cases op with
  | difference => exact L1 gl (Or.inl rfl)
  | intersection =>
    rcases gl with gl | gl
    · exact L1 gl (Or.inr rfl)
    · rw [N2 gl]
      rcases hv : xorSum g second with _ | _
      · simp [opv]
      · rw [F1 hv]
  | union => rw [N1 gl.1, N2 gl.2]
  | symmetricDifference => rw [N1 gl.1, N2 gl.2]

/-- The selected pieces. -/
def chosen (S : Shp) (acc : List ℕ) : List ℕ := acc.filter fun x => isLeft x && S.isFromResult x

/-- A piece as a segment. -/
def segOf (S : Shp) (x : ℕ) : Segment := ⟨S.lin.start x, S.lin.end x⟩

theorem Fin.mem_acc (h : Fin ε op first second full1 full2 R1 R2 stop S M acc) {x : ℕ} :
    x ∈ acc ↔ x < cnt S.lin ∧ stop (S.lin.start x) = false := by
  rw [h.h1.mem x, h.rel.lin]
  simp

theorem fromResult_left' {S : Shp} {x : ℕ} (h : x % 2 = 0) : S.isFromResult x = flag S.fromResult x := by
  unfold Shp.isFromResult Lin.toLeft
  rw [if_pos (isLeft_iff.mpr h)]
  rfl

theorem Fin.mem_chosen (h : Fin ε op first second full1 full2 R1 R2 stop S M acc) {x : ℕ} :
    x ∈ chosen S acc ↔ IsL S.lin x ∧ stop (S.lin.start x) = false ∧ flag S.fromResult x = true := by
  unfold chosen
  rw [List.mem_filter, h.mem_acc, Bool.and_eq_true, isLeft_iff]
  constructor
  · rintro ⟨⟨a, b⟩, d, e⟩
    rw [fromResult_left' d] at e
    exact ⟨⟨a, d⟩, b, e⟩
  · rintro ⟨⟨a, d⟩, b, e⟩
    exact ⟨⟨a, b⟩, d, by rw [fromResult_left' d]; exact e⟩

theorem segOf_lohi {S : Shp} {x : ℕ} (g : (ctxOf first second ε).Good) (w : Wf (ctxOf first second ε) S.lin)
    (hx : IsL S.lin x) : lo (segOf S x) = S.lin.start x ∧ hi (segOf S x) = S.lin.end x := by
  have := start_le_end g w hx
  unfold lo hi toSortedPair segOf
  simp only
  rw [if_pos]
  · exact ⟨rfl, rfl⟩
  · exact Point.ltB_iff.mpr this

theorem xorSum_map_set {α : Type} [DecidableEq α] (g : Segment → Bool) (f : α → Segment) :
    ∀ {l : List α}, l.Nodup → xorSum g (l.map f) = bit (∑ x ∈ l.toFinset, z (g (f x)))
  | [], _ => rfl
  | x :: l, h => by
    obtain ⟨h1, h2⟩ := List.nodup_cons.mp h
    rw [List.toFinset_cons, sum_insert (by simpa using h1), bit_add, bit_z, ← xorSum_map_set g f h2, List.map_cons,
      xorSum]

theorem segOf_below {S : Shp} {x : ℕ} (g : (ctxOf first second ε).Good) (w : Wf (ctxOf first second ε) S.lin)
    (hx : IsL S.lin x) (p : Point) : below ε (segOf S x) p = true ↔
      lx (ctxOf first second ε) S.lin x ≤ Xe ε p ∧ Xe ε p < rx (ctxOf first second ε) S.lin x ∧
        (ctxOf first second ε).f (S.lin.sid x) (Xe ε p) < p.y := by
  obtain ⟨e1, e2⟩ := segOf_lohi g w hx
  have lr := w.lr x hx
  have inc : Xe ε (lo (segOf S x)) < Xe ε (hi (segOf S x)) := by rw [e1, e2]; exact lr
  have f : sF ε (segOf S x) (Xe ε p) = (ctxOf first second ε).f (S.lin.sid x) (Xe ε p) := by
    have o1 := w.onL x hx
    have o2 := w.onR x hx
    unfold Ctx.On at o1 o2
    have l1 : (ctxOf first second ε).X (S.lin.start x) = lx (ctxOf first second ε) S.lin x := rfl
    have l2 : (ctxOf first second ε).X (S.lin.end x) = rx (ctxOf first second ε) S.lin x := rfl
    have k1 : Xe ε (S.lin.start x) = lx (ctxOf first second ε) S.lin x := rfl
    have k2 : Xe ε (S.lin.end x) = rx (ctxOf first second ε) S.lin x := rfl
    rw [l1] at o1
    rw [l2] at o2
    unfold sF sC sK
    rw [e1, e2, k1, k2, o1, o2]
    unfold Ctx.f
    have : rx (ctxOf first second ε) S.lin x - lx (ctxOf first second ε) S.lin x ≠ 0 := by linarith
    field_simp
    ring
  rw [below_sF inc, f]
  unfold sSpans
  rw [e1, e2]
  exact and_assoc

/-- The parity of the selected pieces below a point. -/
theorem Fin.point (h : Fin ε op first second full1 full2 R1 R2 stop S M acc)
    (gl : Glue ε op first second full1 full2 stop) (cl : Close ε op first second full1 full2 stop) (p : Point) :
    downParity ε p ((chosen S acc).map (segOf S)) = opv op (downParity ε p full1) (downParity ε p full2) := by
  have w := h.wf
  have g := h.good
  have inc1 := h.two.s2.edges.inc
  have inc2 := h.two.s1.edges.inc
  have hsub1 := h.two.s2.sub
  have hsub2 := h.two.s1.sub
  set c := ctxOf first second ε with hc
  have hX : c.X p = Xe ε p := rfl
  by_cases hr : Within c stop (c.X p)
  · have lv := (h.rule hr).level g _ _ rfl
      (lower_lowE (c := c) (t := c.X p) (X := c.X p) (y := p.y) fun _ _ _ _ _ _ => order_self)
    have hin : ∀ s ∈ full1 ++ full2, (below ε s p = true ↔ sSpans ε s (Xe ε p) ∧ sF ε s (Xe ε p) < p.y) := by
      intro s hs
      rcases List.mem_append.mp hs with k | k
      · exact below_sF (inc1 s k) p
      · exact below_sF (inc2 s k) p
    have gl' := h.two.glue gl hr (g := fun s => below ε s p) (fun s k => by
      obtain ⟨a, b, _⟩ := below_iff.mp k
      exact ⟨a, b⟩)
    have hE : ∀ T, par c T (lowE c (c.X p) (c.X p) p.y) = xorSum (fun s => below ε s p) (kept first second T) := by
      intro T
      refine par_filter T fun j => ?_
      rw [mem_lowE]
      refine and_congr_right fun hj => ?_
      rw [hin]
      · rfl
      · have m : segAt (first ++ second) j ∈ first ++ second := segAt_mem hj
        rcases List.mem_append.mp m with k | k
        · exact List.mem_append_left _ (hsub1 _ k)
        · exact List.mem_append_right _ (hsub2 _ k)
    unfold downParity
    rw [← gl']
    have e1 : kept first second true = first := rfl
    have e2 : kept first second false = second := rfl
    rw [hE, hE, e1, e2] at lv
    rw [← lv, xorSum_map_set _ _ (l := chosen S acc) (h.h1.nd.filter _)]
    congr 1
    have s1 : ∑ x ∈ (chosen S acc).toFinset, z (below ε (segOf S x) p) =
        ∑ x ∈ (range (cnt S.lin)).filter (fun x => x % 2 = 0 ∧ lx c S.lin x ≤ c.X p ∧ c.X p < rx c S.lin x ∧
          c.f (S.lin.sid x) (c.X p) < p.y), z (flag S.fromResult x) := by
      have a : ∑ x ∈ (chosen S acc).toFinset, z (below ε (segOf S x) p) =
          ∑ x ∈ range (cnt S.lin), z (decide (x ∈ chosen S acc) && below ε (segOf S x) p) := by
        have b : ∑ x ∈ (chosen S acc).toFinset, z (decide (x ∈ chosen S acc) && below ε (segOf S x) p) =
            ∑ x ∈ range (cnt S.lin), z (decide (x ∈ chosen S acc) && below ε (segOf S x) p) := by
          refine sum_subset (fun x hx => ?_) fun x _ hx => ?_
          · exact mem_range.mpr (h.mem_chosen.mp (List.mem_toFinset.mp hx)).1.1
          · rw [decide_eq_false fun k => hx (List.mem_toFinset.mpr k)]; rfl
        rw [← b]
        refine sum_congr rfl fun x hx => ?_
        rw [decide_eq_true (List.mem_toFinset.mp hx), Bool.true_and]
      rw [a, sum_filter]
      refine sum_congr rfl fun x hx => ?_
      have hx := mem_range.mp hx
      by_cases q : x % 2 = 0 ∧ lx c S.lin x ≤ c.X p ∧ c.X p < rx c S.lin x ∧ c.f (S.lin.sid x) (c.X p) < p.y
      · rw [if_pos q]
        have hL : IsL S.lin x := ⟨hx, q.1⟩
        rw [(segOf_below g w hL p).mpr q.2, Bool.and_true]
        congr 1
        refine bool_eq_of_iff ?_
        rw [decide_eq_true_iff, h.mem_chosen]
        exact ⟨fun k => k.2.2, fun k => ⟨hL, h.begun hL q.2.1 hr, k⟩⟩
      · rw [if_neg q]
        have : (decide (x ∈ chosen S acc) && below ε (segOf S x) p) = false := by
          refine bool_false fun k => q ?_
          rw [Bool.and_eq_true, decide_eq_true_iff, h.mem_chosen] at k
          exact ⟨k.1.1.2, (segOf_below g w k.1.1 p).mp k.2⟩
        rw [this]; rfl
    rw [s1]
    refine sum_bij (fun x _ => S.lin.sid x) ?_ ?_ ?_ ?_
    · intro x hx
      rw [mem_filter, mem_range] at hx
      obtain ⟨a, b, d, e, f⟩ := hx
      exact mem_lowE.mpr ⟨w.sidLt x ⟨a, b⟩, w.spans ⟨a, b⟩ d e, f⟩
    · intro x hx y hy e
      rw [mem_filter, mem_range] at hx hy
      exact w.piece_unique ⟨hx.1, hx.2.1⟩ ⟨hy.1, hy.2.1⟩ e hx.2.2.1 hx.2.2.2.1 hy.2.2.1 hy.2.2.2.1
    · intro i hi
      obtain ⟨a, b, d⟩ := mem_lowE.mp hi
      obtain ⟨x, hx, rfl, x1, x2⟩ := w.piece a b
      exact ⟨x, by rw [mem_filter, mem_range]; exact ⟨hx.1, hx.2, x1, x2, d⟩, rfl⟩
    · intro x hx
      rw [mem_filter, mem_range] at hx
      rw [selAt_eq w ⟨hx.1, hx.2.1⟩ hx.2.2.1 hx.2.2.2.1]
  · have e0 : downParity ε p ((chosen S acc).map (segOf S)) = false := by
      refine xorSum_false fun s hs => bool_false fun k => ?_
      obtain ⟨x, hx, rfl⟩ := List.mem_map.mp hs
      obtain ⟨hL, hst, hf⟩ := h.mem_chosen.mp hx
      have := (segOf_below g w hL p).mp k
      exact hr ⟨_, end_mem w hL, h.closed cl hL hst hf, this.2.1.le⟩
    have e' : ∀ {lin kept full : List Segment}, Ends ε first second lin kept full stop → downParity ε p full = false := by
      intro lin kept full k
      refine xorSum_false fun s hs => bool_false fun q => ?_
      obtain ⟨v, vP, vs, a⟩ := k.reach s hs
      have b := (below_iff.mp q).2.1
      exact hr ⟨v, vP, vs, (b.le.trans a)⟩
    rw [e0]
    cases op with
    | difference => rw [e' cl]; rfl
    | intersection =>
      rcases cl with cl | cl
      · rw [e' cl]; rfl
      · rw [e' cl]; simp [opv]
    | union => rw [e' cl.1, e' cl.2]; rfl
    | symmetricDifference => rw [e' cl.1, e' cl.2]; rfl
end

end Rene.Sweep
