import Verif.Lemmas.Assemble.Outcome
import Verif.Lemmas.Assemble.Recorded
import Verif.Lemmas.Face.Link
import Mathlib.Algebra.Ring.Parity

/-! The points in the polygons of the result. -/

namespace Rene.Sweep
open Rene Spec Face Assemble

/-- An odd number of elements. -/
theorem xorAll_odd (g : ℕ → Bool) (m : ℕ) : xorAll g (List.range m) = true ↔
    Odd ((Finset.range m).filter fun j => g j = true).card := by
  induction m with
  | zero => simp [xorAll]
  | succ m ih =>
    rw [List.range_succ, xorAll_append, Finset.range_add_one, Finset.filter_insert]
    have e : xorAll g [m] = g m := by simp [xorAll]
    rw [e]
    cases hm : g m
    · simpa using ih
    · rw [if_pos rfl, Finset.card_insert_of_notMem (by simp), Nat.odd_add_one, ← ih]
      simp

theorem polygon_interior_iff {p : Polygon} {q : Point} (hq : ∀ c ∈ p.holes, locatePointInRegion c q ≠ .boundary) :
    p.locate q = .interior ↔ locatePointInRegion p.border q = .interior ∧
      ∀ c ∈ p.holes, locatePointInRegion c q ≠ .interior := by
  have hh : ∀ hs : List Contour, (∀ c ∈ hs, locatePointInRegion c q ≠ .boundary) →
      (locateInHoles q hs = .interior ↔ ∀ c ∈ hs, locatePointInRegion c q ≠ .interior) := by
    intro hs
    induction hs with
    | nil => intro _; simp [locateInHoles]
    | cons c hs ih =>
      intro hb
      have ih' := ih fun c hc => hb c (by simp [hc])
      have b := hb c (by simp)
      unfold locateInHoles
      rcases hl : locatePointInRegion c q with _ | _ | _
      · exact absurd hl b
      · simp only
        rw [ih']
        simp [hl]
      · simp [hl]
  unfold Polygon.locate
  rcases hl : locatePointInRegion p.border q with _ | _ | _
  · simp
  · simp
  · simp only [true_and]
    exact hh _ hq

section
variable {ε : ℚ} {op : ShpOp} {first second full1 full2 : List Segment} {R1 R2 : Set Point} {stop : Point → Bool}
  {S : Shp} {M : Mix} {acc : List ℕ}

/-- The selected edge passes below the point. -/
noncomputable def passes (ε : ℚ) (h : Fin ε op first second full1 full2 R1 R2 stop S M acc)
    (cl : Close ε op first second full1 full2 stop) (p : Point) (j : _root_.Fin (selEvents S acc).length) : Bool :=
  (darts (h.evs cl)).lf j && below ε (segOf S ((selEvents S acc).get j)) p

/-- The parity of the edges of a set of darts below a point. -/
theorem point_parity (h : Fin ε op first second full1 full2 R1 R2 stop S M acc)
    (cl : Close ε op first second full1 full2 stop) {C : List (_root_.Fin (selEvents S acc).length)} (nd : C.Nodup)
    (no : ∀ d ∈ C, (darts (h.evs cl)).opp d ∉ C) (p : Point) :
    downParity ε p ((C.map (selEvents S acc).get).map (dartSeg S)) =
      bit (∑ j, z ((darts (h.evs cl)).span C j && passes ε h cl p j)) := by
  set D := darts (h.evs cl) with hD
  have G := h.geo' cl
  have w := h.wf
  let li : _root_.Fin (selEvents S acc).length → _root_.Fin (selEvents S acc).length := fun d => if D.lf d then d else D.opp d
  have lilf : ∀ d, D.lf (li d) = true := by
    intro d
    show D.lf (if D.lf d then d else D.opp d) = true
    cases hd : D.lf d
    · simp only [Bool.false_eq_true, if_false]
      rw [G.lf_opp, hd]; rfl
    · simp only [if_true]; exact hd
  have lieq : ∀ d, (selEvents S acc).get (li d) = S.lin.toLeft ((selEvents S acc).get d) := by
    intro d
    show (selEvents S acc).get (if D.lf d then d else D.opp d) = _
    cases hd : D.lf d
    · simp only [Bool.false_eq_true, if_false]
      rw [hD, get_opp, toLeft_right]
      rw [hD, darts_lf] at hd
      rw [hd]; simp
    · simp only [if_true]
      rw [toLeft_left]
      rw [hD, darts_lf] at hd
      exact hd
  have hnd : (C.map li).Nodup := by
    unfold List.Nodup
    rw [List.pairwise_map]
    refine List.Pairwise.imp_of_mem ?_ nd
    intro a b ha hb hab q
    have := congrArg (selEvents S acc).get q
    rw [lieq, lieq] at this
    rcases contour_toLeft h cl this with z | z
    · exact hab z
    · exact no b hb (by rw [← z]; exact ha)
  have e1 : downParity ε p ((C.map (selEvents S acc).get).map (dartSeg S)) =
      xorSum (fun s => below ε s p) ((C.map li).map fun j => segOf S ((selEvents S acc).get j)) := by
    unfold downParity
    rw [List.map_map, List.map_map]
    clear hnd nd no
    induction C with
    | nil => rfl
    | cons d C ih =>
      rw [List.map_cons, List.map_cons, xorSum, xorSum, ih]
      congr 1
      show below ε (dartSeg S ((selEvents S acc).get d)) p = below ε (segOf S ((selEvents S acc).get (li d))) p
      rw [lieq]
      rcases dartSeg_eq w (((mem_selEvents h).mp (List.get_mem _ d)).1) with k | k <;> rw [k]
      rw [below_reverse]
  rw [e1, xorSum_map_set _ _ hnd]
  congr 1
  rw [← Finset.sum_subset (Finset.subset_univ (C.map li).toFinset)]
  · refine Finset.sum_congr rfl fun j hj => ?_
    rw [List.mem_toFinset, List.mem_map] at hj
    obtain ⟨d, hd, rfl⟩ := hj
    have hl := lilf d
    have hspan : D.span C (li d) = true := by
      rw [D.span_iff]
      show (if D.lf d then d else D.opp d) ∈ C ∨ D.opp (if D.lf d then d else D.opp d) ∈ C
      cases D.lf d
      · right
        simp only [Bool.false_eq_true, if_false]
        rw [G.opp_opp]; exact hd
      · left; simp only [if_true]; exact hd
    generalize li d = j at hl hspan
    rw [hspan, Bool.true_and]
    unfold passes
    rw [← hD, hl, Bool.true_and]
  · intro j _ hj
    rw [List.mem_toFinset, List.mem_map] at hj
    by_cases hl : D.lf j = true
    · have : D.span C j = false := by
        rw [D.span_false]
        refine ⟨fun k => hj ⟨j, k, ?_⟩, fun k => hj ⟨D.opp j, k, ?_⟩⟩
        · show (if D.lf j then j else D.opp j) = j
          rw [if_pos hl]
        · show (if D.lf (D.opp j) then D.opp j else D.opp (D.opp j)) = j
          rw [G.lf_opp, hl]
          simp only [Bool.not_true, Bool.false_eq_true, if_false]
          exact G.opp_opp j
      rw [this]; rfl
    · simp only [Bool.not_eq_true] at hl
      unfold passes
      rw [← hD, hl]; simp

/-- The point is above some dart, or below all. -/
theorem point_top (h : Fin ε op first second full1 full2 R1 R2 stop S M acc)
    (cl : Close ε op first second full1 full2 stop) (p : Point) :
    (∀ j, passes ε h cl p j = false) ∨ ∃ b, ∀ L, (darts (h.evs cl)).Ev L →
      bit (∑ j, z (L j && passes ε h cl p j)) = sideSel h cl L b := by
  set D := darts (h.evs cl) with hD
  have G := h.geo' cl
  have w := h.wf
  have vo : ∀ j, D.v (D.opp j) = (ctxOf first second ε).X (S.lin.end ((selEvents S acc).get j)) :=
    fun j => by rw [hD, darts_v, get_opp]; rfl
  have vj : ∀ j, D.v j = lx (ctxOf first second ε) S.lin ((selEvents S acc).get j) := fun j => by rw [hD, darts_v]
  have key : ∀ j, passes ε h cl p j = true ↔ D.lf j = true ∧ D.v j ≤ Xe ε p ∧ Xe ε p < D.v (D.opp j) ∧
      kSel ε first second S acc j * Xe ε p + cSel ε first second S acc j < p.y := by
    intro j
    unfold passes
    rw [← hD, Bool.and_eq_true]
    refine and_congr_right fun hl => ?_
    obtain ⟨j1, j2, j3, j4, j5⟩ := sel_left h cl hl
    rw [segOf_below h.good w j2, j4, j5, vo, vj]
    rfl
  rcases G.top (t := Xe ε p) (B := passes ε h cl p) (fun j hj => by
      obtain ⟨k1, k2, k3, _⟩ := (key j).mp hj
      exact ⟨k1, k2, k3⟩) (fun b j hb hj => by
      rw [key] at hb ⊢
      rw [Face.under_iff] at hj
      obtain ⟨j1, j2, j3, j4⟩ := hj
      refine ⟨j1, j2, j3, ?_⟩
      rcases j4 with k | ⟨k, _⟩
      · exact lt_trans k hb.2.2.2
      · rw [k]; exact hb.2.2.2) with k | ⟨b, _, k⟩
  · exact Or.inl k
  · right
    exact ⟨b, fun L hL => by rw [k L hL, bit_z]⟩

/-- The edges of an even set at the start of its first edge are not below it. -/
theorem start_paired {n : ℕ} {D : Darts (_root_.Fin n)} {k c : _root_.Fin n → ℚ} {y : ℚ → ℚ} (G : Geo D k c y)
    {U L : _root_.Fin n → Bool} {e : _root_.Fin n} (he : D.lf e = true) (hmin : ∀ x, U x = true → D.rank e ≤ D.rank x)
    (hL : D.Ev L) (sub : ∀ d, L d = true → U d = true) :
    ∑ j, z (L j && (D.lf j && (decide (D.v j = D.v e) && decide (k e ≤ k j)))) = 0 := by
  rw [← hL.even fun v => decide (v = D.v e)]
  refine Finset.sum_congr rfl fun d _ => ?_
  congr 1
  by_cases hd : L d = true
  · by_cases hv : D.v d = D.v e
    · have lf : D.lf d = true := by
        by_contra q
        have lo : D.lf (D.opp d) = true := by rw [G.lf_opp]; simpa using q
        have := G.lt _ lo
        rw [G.opp_opp, hv] at this
        have r := G.rank _ _ lo he (Or.inl this)
        have := hmin _ (sub _ ((hL.opp d).trans hd))
        omega
      have kk : k e ≤ k d := by
        by_contra q
        have r := G.rank _ _ lf he (Or.inr ⟨hv, not_le.mp q⟩)
        have := hmin _ (sub _ hd)
        omega
      rw [lf, decide_eq_true hv, decide_eq_true kk]
      simp
    · rw [decide_eq_false hv]
      simp
  · rw [Bool.not_eq_true] at hd
    rw [hd]
    simp

/-- The recorded relations of the contours are their nesting. -/
theorem Fin.forest (h : Fin ε op first second full1 full2 R1 R2 stop S M acc)
    (gl : Glue ε op first second full1 full2 stop) (cl : Close ε op first second full1 full2 stop)
    (nt : Sparse (ctxOf first second ε)) {a : Shp.Asm} {Cs : List (List (_root_.Fin (selEvents S acc).length))}
    (hI : AsmInv (h.evs cl) (sideSel h cl) a Cs (selEvents S acc).length) :
    Forest Cs.length (outer (darts (h.evs cl)) (sideSel h cl) Cs) (fun j => a.internal.getD j false)
      (fun j => a.parents.getD j none) := by
  set D := darts (h.evs cl) with hD
  have G := h.geo' cl
  have n := Peeled.nest (h.good' cl) (h.ev gl cl) hI.peeled
  refine ⟨fun j _ k hk => (mem_outer.mp hk).2.1, fun j hj => ?_⟩
  obtain ⟨e, he, hl⟩ := hI.link j hj
  have hem : e ∈ Cs.getD j [] := List.mem_of_mem_head? he
  obtain ⟨U, e', u1, u2, u3, u4⟩ := Peeled.contour (h.good' cl) (h.ev gl cl) hI.peeled _ (getD_mem hj)
  have hee : e' = e := by
    have := u4.head
    rw [this] at he
    exact Option.some.inj he
  subst hee
  have hev : ∀ k < Cs.length, D.Ev (D.span (Cs.getD k [])) := fun k hk => n.cev _ (getD_mem hk)
  -- the contours where it starts in the middle of a segment
  have hP : ∀ k < Cs.length, Paired (ctxOf first second ε) S.lin D
      (fun i => slope (ctxOf first second ε) S.lin ((selEvents S acc).get i)) ((selEvents S acc).get e')
      (D.span (Cs.getD k [])) := by
    rintro k hk ⟨y, ir⟩
    obtain ⟨d1, d2, d3, d4, d5, d6⟩ := h.dart cl u2
    have sp := start_paired (h.geo cl) u2 u3 (hev j hj) (u4.sub u1)
    rw [← hD, d4] at sp
    by_cases hkj : k = j
    · rw [hkj]; exact sp
    · have dis : ∀ x, D.span (Cs.getD k []) x = true → D.span (Cs.getD j []) x = false := by
        intro x hx
        rcases lt_or_gt_of_ne hkj with q | q
        · have := (List.pairwise_iff_getElem.mp n.const k j hk hj q).2.2 x
          rw [List.getD_eq_getElem _ _ hk] at hx
          rw [List.getD_eq_getElem _ _ hj]
          exact this hx
        · have := (List.pairwise_iff_getElem.mp n.const j k hj hk q).2.2 x
          rw [List.getD_eq_getElem _ _ hk] at hx
          rw [List.getD_eq_getElem _ _ hj]
          by_contra r
          rw [Bool.not_eq_false] at r
          rw [this r] at hx
          cases hx
      obtain ⟨_, hK, _⟩ := h.irr d1 d3 ir
      have two : ∀ i, (D.lf i && (decide (D.v i = lx (ctxOf first second ε) S.lin ((selEvents S acc).get e')) &&
          decide ((ctxOf first second ε).K (S.lin.sid ((selEvents S acc).get e')) ≤
            slope (ctxOf first second ε) S.lin ((selEvents S acc).get i)))) = true →
          IsL S.lin ((selEvents S acc).get i) ∧ lx (ctxOf first second ε) S.lin ((selEvents S acc).get i) =
            lx (ctxOf first second ε) S.lin ((selEvents S acc).get e') ∧ S.lin.sid ((selEvents S acc).get i) ≠ S.lin.sid y := by
        intro i hi
        rw [Bool.and_eq_true, Bool.and_eq_true, decide_eq_true_iff, decide_eq_true_iff] at hi
        obtain ⟨q1, q2, q3⟩ := hi
        obtain ⟨f1, f2, f3, f4, f5, f6⟩ := h.dart cl q1
        rw [f4] at q3
        exact ⟨f1, q2, fun e => by rw [e] at q3; linarith⟩
      refine Finset.sum_eq_zero fun i _ => ?_
      by_contra hz
      have hz' : (D.span (Cs.getD k []) i && (D.lf i && (decide (D.v i = lx (ctxOf first second ε) S.lin ((selEvents S acc).get e')) &&
          decide ((ctxOf first second ε).K (S.lin.sid ((selEvents S acc).get e')) ≤
            slope (ctxOf first second ε) S.lin ((selEvents S acc).get i))))) = true := by
        by_contra q
        rw [Bool.not_eq_true] at q
        exact hz (by rw [q]; rfl)
      rw [Bool.and_eq_true] at hz'
      obtain ⟨z1, z2⟩ := hz'
      have ni := dis i z1
      have se : D.span (Cs.getD j []) e' = true := D.span_iff.mpr (Or.inl hem)
      have hie : i ≠ e' := by rintro rfl; rw [se] at ni; cases ni
      obtain ⟨i1, i2, i3⟩ := two i z2
      rw [Finset.sum_eq_single e'] at sp
      · have lf : D.lf e' = true := u2
        have e1 : D.v e' = lx (ctxOf first second ε) S.lin ((selEvents S acc).get e') := by rw [hD, darts_v]
        rw [se, lf, decide_eq_true rfl, d4, decide_eq_true (le_refl _)] at sp
        revert sp
        decide
      · intro b _ hb
        by_contra hz2
        have hz3 : (D.span (Cs.getD j []) b && (D.lf b && (decide (D.v b = lx (ctxOf first second ε) S.lin ((selEvents S acc).get e')) &&
          decide ((ctxOf first second ε).K (S.lin.sid ((selEvents S acc).get e')) ≤
            slope (ctxOf first second ε) S.lin ((selEvents S acc).get b))))) = true := by
          by_contra q
          rw [Bool.not_eq_true] at q
          exact hz2 (by
            have e1 : D.v e' = lx (ctxOf first second ε) S.lin ((selEvents S acc).get e') := by rw [hD, darts_v]
            rw [e1, q]; rfl)
        rw [Bool.and_eq_true] at hz3
        obtain ⟨b1, b2, b3⟩ := two b hz3.2
        have := h.irr_two d1 d3 ir i1 b1 i2 i3 b2 b3 (fun e => hie (get_inj (h.evs cl) e)) (fun e => hb (get_inj (h.evs cl) e))
        have := get_inj (h.evs cl) this
        rw [← this, ni] at hz3
        cases hz3.1
      · intro q; exact absurd (Finset.mem_univ _) q
  obtain ⟨r1, r2⟩ : (bel S ((selEvents S acc).get e') = none → ∀ k < Cs.length,
        sideSel h cl (D.span (Cs.getD k [])) (D.opp e') = false) ∧
      ∀ i, D.lf i = true → bel S ((selEvents S acc).get e') = some ((selEvents S acc).get i) → ∀ k < Cs.length,
        sideSel h cl (D.span (Cs.getD k [])) (D.opp e') = sideSel h cl (D.span (Cs.getD k [])) i :=
    ⟨fun q k hk => (h.recorded cl nt e' u2 _ (hev k hk) (hP k hk)).1 q,
      fun i hi q k hk => (h.recorded cl nt e' u2 _ (hev k hk) (hP k hk)).2 i hi q⟩
  have ae := (n.around_eq G.opp_opp hj hem).2
  rcases hl with ⟨k1, k2, k3⟩ | ⟨i, c, c1, c2, c3, c4⟩
  · left
    refine ⟨?_, k2, k3⟩
    rw [← ae, Finset.eq_empty_iff_forall_notMem]
    intro k hk
    obtain ⟨m1, m2⟩ := mem_around.mp hk
    rw [r1 k1 k m1] at m2
    cases m2
  · right
    have hcm : c < Cs.length := lt_trans c1 hj
    have ea : around D (sideSel h cl) Cs (D.opp e') = around D (sideSel h cl) Cs i := by
      ext k
      rw [mem_around, mem_around]
      refine and_congr_right fun hk => ?_
      rw [r2 i c2 c3 k hk]
    rw [ae] at ea
    refine ⟨c, c1, ?_⟩
    have in1 : i ∈ Cs.getD c [] → outer D (sideSel h cl) Cs j = insert c (outer D (sideSel h cl) Cs c) := fun k => by
      rw [ea, (n.around_eq G.opp_opp hcm k).1]
    have in2 : D.opp i ∈ Cs.getD c [] → outer D (sideSel h cl) Cs j = outer D (sideSel h cl) Cs c := fun k => by
      have := (n.around_eq G.opp_opp hcm k).2
      rw [G.opp_opp] at this
      rw [ea, this]
    rcases c4 with ⟨k, k1, k2, k3⟩ | ⟨k, k1, k2, k3⟩ | ⟨k, k1, k2, k3⟩ | ⟨k, k1, k2, k3⟩
    · exact Or.inl ⟨in1 k, k1, k2, k3⟩
    · exact Or.inr (Or.inl ⟨in1 k, k1, k2, k3⟩)
    · exact Or.inr (Or.inr (Or.inl ⟨in2 k, k1, k2, k3⟩))
    · exact Or.inr (Or.inr (Or.inr ⟨in2 k, k1, k2, k3⟩))

theorem mem_polys {m : ℕ} {internal : ℕ → Bool} {parent : ℕ → Option ℕ} {V : ℕ → List Point} {p : Polygon} :
    p ∈ polys m internal parent V ↔ ∃ j < m, internal j = false ∧
      p = ⟨⟨V j⟩, (holesOf m parent j).map fun i => ⟨V i⟩⟩ := by
  unfold polys
  rw [List.mem_flatMap]
  constructor
  · rintro ⟨j, hj, k⟩
    rw [List.mem_range] at hj
    by_cases hi : internal j = true
    · rw [if_pos hi] at k; cases k
    · rw [if_neg hi, List.mem_singleton] at k
      exact ⟨j, hj, by simpa using hi, k⟩
  · rintro ⟨j, hj, hi, rfl⟩
    exact ⟨j, List.mem_range.mpr hj, by rw [hi]; simp⟩

/-- The contours around a point off them. -/
noncomputable def insideOf (a : Shp.Asm) (m : ℕ) (q : Point) : Finset ℕ :=
  (Finset.range m).filter fun j => locatePointInRegion ⟨a.vertices.getD j []⟩ q = .interior

theorem mem_insideOf {a : Shp.Asm} {m : ℕ} {q : Point} {k : ℕ} :
    k ∈ insideOf a m q ↔ k < m ∧ locatePointInRegion ⟨a.vertices.getD k []⟩ q = .interior := by
  unfold insideOf
  rw [Finset.mem_filter, Finset.mem_range]

/-- They are those around some contour, possibly with it. -/
theorem Fin.tower (h : Fin ε op first second full1 full2 R1 R2 stop S M acc)
    (gl : Glue ε op first second full1 full2 stop) (cl : Close ε op first second full1 full2 stop)
    (gP : Gen ε (· ∈ (ctxOf first second ε).P)) {a : Shp.Asm}
    {Cs : List (List (_root_.Fin (selEvents S acc).length))}
    (hI : AsmInv (h.evs cl) (sideSel h cl) a Cs (selEvents S acc).length)
    (hsame : ∀ j < Cs.length, Same (S.rawVertices ((Cs.getD j []).map (selEvents S acc).get)) (a.vertices.getD j [])
        (if a.internal.getD j false = true then .clockwise else .counterclockwise)) {q : Point}
    (hq : ∀ j < Cs.length, q ∉ segsPts (toContourSegments (a.vertices.getD j []))) :
    insideOf a Cs.length q = ∅ ∨ ∃ i < Cs.length, insideOf a Cs.length q = outer (darts (h.evs cl)) (sideSel h cl) Cs i ∨
      insideOf a Cs.length q = insert i (outer (darts (h.evs cl)) (sideSel h cl) Cs i) := by
  have n := Peeled.nest (h.good' cl) (h.ev gl cl) hI.peeled
  have G := h.geo' cl
  have w := h.wf
  set T := insideOf a Cs.length q with hTd
  have mT : ∀ k, k ∈ T ↔ k < Cs.length ∧ locatePointInRegion ⟨a.vertices.getD k []⟩ q = .interior := fun k => mem_insideOf
  have key : ∀ k < Cs.length, (locatePointInRegion ⟨a.vertices.getD k []⟩ q = .interior ↔
      bit (∑ j, z ((darts (h.evs cl)).span (Cs.getD k []) j && passes ε h cl q j)) = true) := by
    intro k hk
    obtain ⟨U, e, u1, u2, u3, u4⟩ := Peeled.contour (h.good' cl) (h.ev gl cl) hI.peeled _ (getD_mem hk)
    obtain ⟨r1, r2⟩ := contour_raw h cl u4
    have sm := hsame k hk
    have hdl := downParity_locate (ε := ε) (c := ⟨a.vertices.getD k []⟩) (p := q) (fun s hs => contour_Xe
      (fun u hu v hv kk => gP u (by
        have := sm.sub u hu
        rw [r1, List.mem_map] at this
        obtain ⟨x, hx, rfl⟩ := this
        obtain ⟨i, _, rfl⟩ := List.mem_map.mp hx
        exact w.memP _ ((mem_selEvents h).mp (List.get_mem _ i)).1) v (by
        have := sm.sub v hv
        rw [r1, List.mem_map] at this
        obtain ⟨x, hx, rfl⟩ := this
        obtain ⟨i, _, rfl⟩ := List.mem_map.mp hx
        exact w.memP _ ((mem_selEvents h).mp (List.get_mem _ i)).1) kk) sm.simple.2.2 hs) (hq k hk)
    have e2 : downParity ε q (⟨a.vertices.getD k []⟩ : Contour).segments =
        bit (∑ j, z ((darts (h.evs cl)).span (Cs.getD k []) j && passes ε h cl q j)) := by
      rw [← point_parity h cl (List.Nodup.of_map _ u4.vnd) u4.no, ← r2]
      exact sm.par ε q
    rw [← e2, hdl, decide_eq_true_iff]
  rcases point_top h cl q with k | ⟨b, k⟩
  · left
    rw [Finset.eq_empty_iff_forall_notMem]
    intro j hj
    obtain ⟨j1, j2⟩ := (mT j).mp hj
    rw [key j j1] at j2
    have : (∑ i, z ((darts (h.evs cl)).span (Cs.getD j []) i && passes ε h cl q i)) = 0 :=
      Finset.sum_eq_zero fun i _ => by rw [k i]; simp [z]
    rw [this] at j2
    revert j2; decide
  · right
    have e : T = around (darts (h.evs cl)) (sideSel h cl) Cs b := by
      ext j
      rw [mT, mem_around]
      refine and_congr_right fun hj => ?_
      rw [key j hj, k _ (n.cev _ (getD_mem hj))]
    rw [e]
    exact n.around_cases G.opp_opp (fun d => hI.done d d.2) b
/-- A point off the contours is in a polygon of the result iff it is inside an odd number of contours. -/
theorem Fin.located (h : Fin ε op first second full1 full2 R1 R2 stop S M acc)
    (gl : Glue ε op first second full1 full2 stop) (cl : Close ε op first second full1 full2 stop)
    (nt : Sparse (ctxOf first second ε)) (gP : Gen ε (· ∈ (ctxOf first second ε).P)) {a : Shp.Asm}
    {Cs : List (List (_root_.Fin (selEvents S acc).length))}
    (hI : AsmInv (h.evs cl) (sideSel h cl) a Cs (selEvents S acc).length)
    (hsame : ∀ j < Cs.length, Same (S.rawVertices ((Cs.getD j []).map (selEvents S acc).get)) (a.vertices.getD j [])
        (if a.internal.getD j false = true then .clockwise else .counterclockwise)) {q : Point}
    (hq : ∀ j < Cs.length, q ∉ segsPts (toContourSegments (a.vertices.getD j []))) :
    (∃ p ∈ polys Cs.length (fun j => a.internal.getD j false) (fun j => a.parents.getD j none)
      (fun j => a.vertices.getD j []), p.locate q = .interior) ↔
    xorAll (fun c => decide (locatePointInRegion c q = .interior)) ((polys Cs.length (fun j => a.internal.getD j false)
      (fun j => a.parents.getD j none) (fun j => a.vertices.getD j [])).flatMap polygonContours) = true := by
  have F := h.forest gl cl nt hI
  have hT := h.tower gl cl gP hI hsame hq
  set T := insideOf a Cs.length q with hTd
  have mT : ∀ k, k ∈ T ↔ k < Cs.length ∧ locatePointInRegion ⟨a.vertices.getD k []⟩ q = .interior := fun k => mem_insideOf
  have hR := F.region hT
  have hx : xorAll (fun c => decide (locatePointInRegion c q = .interior)) ((polys Cs.length (fun j => a.internal.getD j false)
      (fun j => a.parents.getD j none) (fun j => a.vertices.getD j [])).flatMap polygonContours) =
      xorAll (fun j => decide (locatePointInRegion ⟨a.vertices.getD j []⟩ q = .interior)) (List.range Cs.length) := by
    rw [xorAll_perm (polys_perm (m := Cs.length) hI.par fun j => a.vertices.getD j [])]
    generalize List.range Cs.length = l
    induction l with
    | nil => rfl
    | cons x l ih => rw [List.map_cons, xorAll, xorAll, ih]
  rw [hx, xorAll_odd]
  have e3 : ((Finset.range Cs.length).filter fun j =>
      decide (locatePointInRegion ⟨a.vertices.getD j []⟩ q = .interior) = true) = T := by
    ext k
    rw [mT, Finset.mem_filter, Finset.mem_range, decide_eq_true_iff]
  rw [e3, ← hR]
  have hb : ∀ j < Cs.length, locatePointInRegion ⟨a.vertices.getD j []⟩ q ≠ .boundary := fun j hj e =>
    hq j hj ((C22_region_boundary _ _).mp e)
  constructor
  · rintro ⟨p, hp, hl⟩
    obtain ⟨j, hj, hi, rfl⟩ := mem_polys.mp hp
    rw [polygon_interior_iff] at hl
    · obtain ⟨l1, l2⟩ := hl
      refine ⟨j, hj, hi, (mT j).mpr ⟨hj, l1⟩, fun i him hpar hiT => ?_⟩
      exact l2 _ (List.mem_map_of_mem (mem_holesOf.mpr ⟨him, hpar⟩)) ((mT i).mp hiT).2
    · intro c hc
      obtain ⟨i, hi', rfl⟩ := List.mem_map.mp hc
      exact hb i (mem_holesOf.mp hi').1
  · rintro ⟨j, hj, hi, jT, hno⟩
    refine ⟨_, mem_polys.mpr ⟨j, hj, hi, rfl⟩, ?_⟩
    rw [polygon_interior_iff]
    · refine ⟨((mT j).mp jT).2, ?_⟩
      intro c hc
      obtain ⟨i, hi', rfl⟩ := List.mem_map.mp hc
      obtain ⟨i1, i2⟩ := mem_holesOf.mp hi'
      exact fun e => hno i i1 i2 ((mT i).mpr ⟨i1, e⟩)
    · intro c hc
      obtain ⟨i, hi', rfl⟩ := List.mem_map.mp hc
      exact hb i (mem_holesOf.mp hi').1

/-- Off the contours: holes are within borders, and neither holes nor polygons share the point. -/
def GenValid (ps : List Polygon) (q : Point) : Prop :=
  (∀ p ∈ ps, ∀ c ∈ p.holes, locatePointInRegion c q = .interior → locatePointInRegion p.border q = .interior) ∧
  (∀ p ∈ ps, p.holes.Pairwise fun c d => ¬ (locatePointInRegion c q = .interior ∧ locatePointInRegion d q = .interior)) ∧
  ps.Pairwise fun p r => ¬ (p.locate q = .interior ∧ r.locate q = .interior)

theorem Fin.genValid (h : Fin ε op first second full1 full2 R1 R2 stop S M acc)
    (gl : Glue ε op first second full1 full2 stop) (cl : Close ε op first second full1 full2 stop)
    (nt : Sparse (ctxOf first second ε)) (gP : Gen ε (· ∈ (ctxOf first second ε).P)) {a : Shp.Asm}
    {Cs : List (List (_root_.Fin (selEvents S acc).length))}
    (hI : AsmInv (h.evs cl) (sideSel h cl) a Cs (selEvents S acc).length)
    (hsame : ∀ j < Cs.length, Same (S.rawVertices ((Cs.getD j []).map (selEvents S acc).get)) (a.vertices.getD j [])
        (if a.internal.getD j false = true then .clockwise else .counterclockwise)) {q : Point}
    (hq : ∀ j < Cs.length, q ∉ segsPts (toContourSegments (a.vertices.getD j []))) :
    GenValid (polys Cs.length (fun j => a.internal.getD j false) (fun j => a.parents.getD j none)
      (fun j => a.vertices.getD j [])) q := by
  obtain ⟨f1, f2, f3⟩ := (h.forest gl cl nt hI).valid (h.tower gl cl gP hI hsame hq)
  have mT : ∀ k, k ∈ insideOf a Cs.length q ↔ k < Cs.length ∧ locatePointInRegion ⟨a.vertices.getD k []⟩ q = .interior :=
    fun k => mem_insideOf
  have hb : ∀ j < Cs.length, locatePointInRegion ⟨a.vertices.getD j []⟩ q ≠ .boundary := fun j hj e =>
    hq j hj ((C22_region_boundary _ _).mp e)
  refine ⟨?_, ?_, ?_⟩
  · intro p hp c hc k
    obtain ⟨j, hj, hi, rfl⟩ := mem_polys.mp hp
    obtain ⟨i, hi', rfl⟩ := List.mem_map.mp hc
    obtain ⟨i1, i2⟩ := mem_holesOf.mp hi'
    exact ((mT j).mp (f1 i i1 j i2 ((mT i).mpr ⟨i1, k⟩))).2
  · intro p hp
    obtain ⟨j, hj, hi, rfl⟩ := mem_polys.mp hp
    rw [List.pairwise_map]
    have nd : (holesOf Cs.length (fun j => a.parents.getD j none) j).Nodup := List.nodup_range.filter _
    refine List.Pairwise.imp_of_mem ?_ nd
    rintro x y hx hy hxy ⟨k1, k2⟩
    obtain ⟨x1, x2⟩ := mem_holesOf.mp hx
    obtain ⟨y1, y2⟩ := mem_holesOf.mp hy
    exact hxy (f2 x x1 y y1 j x2 y2 ((mT x).mpr ⟨x1, k1⟩) ((mT y).mpr ⟨y1, k2⟩))
  · have part : ∀ {j : ℕ} {p : Polygon}, j < Cs.length →
        p ∈ (if a.internal.getD j false = true then [] else [(⟨⟨a.vertices.getD j []⟩,
          (holesOf Cs.length (fun j => a.parents.getD j none) j).map fun i => ⟨a.vertices.getD i []⟩⟩ : Polygon)]) →
        p.locate q = .interior → a.internal.getD j false = false ∧ j ∈ insideOf a Cs.length q ∧
          ∀ k < Cs.length, a.parents.getD k none = some j → k ∉ insideOf a Cs.length q := by
      intro j p hj hp hl
      by_cases hi : a.internal.getD j false = true
      · rw [if_pos hi] at hp; cases hp
      · rw [if_neg hi, List.mem_singleton] at hp
        subst hp
        rw [polygon_interior_iff] at hl
        · refine ⟨by simpa using hi, (mT j).mpr ⟨hj, hl.1⟩, fun k hk hpar hkT => ?_⟩
          exact hl.2 _ (List.mem_map_of_mem (mem_holesOf.mpr ⟨hk, hpar⟩)) ((mT k).mp hkT).2
        · intro c hc
          obtain ⟨i, hi', rfl⟩ := List.mem_map.mp hc
          exact hb i (mem_holesOf.mp hi').1
    unfold polys
    rw [List.pairwise_flatMap]
    refine ⟨fun j _ => ?_, ?_⟩
    · by_cases hi : a.internal.getD j false = true
      · rw [if_pos hi]; exact List.Pairwise.nil
      · rw [if_neg hi]; exact List.pairwise_singleton _ _
    · refine List.Pairwise.imp_of_mem ?_ (List.nodup_range (n := Cs.length))
      rintro x y hx hy hxy p hp r hr ⟨k1, k2⟩
      rw [List.mem_range] at hx hy
      obtain ⟨a1, a2, a3⟩ := part hx hp k1
      obtain ⟨b1, b2, b3⟩ := part hy hr k2
      exact hxy (f3 x hx y hy a1 b1 a2 b2 a3 b3)

end

end Rene.Sweep
