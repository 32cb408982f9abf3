import Verif.Lemmas.Assemble.Polygons

/-! The sides of the pieces as parities. -/

namespace Rene.Sweep
open Rene Spec Face Assemble

section
variable {ε : ℚ} {op : ShpOp} {first second full1 full2 : List Segment} {R1 R2 : Set Point} {stop : Point → Bool}
  {S : Shp} {M : Mix} {acc : List ℕ}

/-- The slopes of the selected events. -/
noncomputable def kSel (ε : ℚ) (first second : List Segment) (S : Shp) (acc : List ℕ) (i : _root_.Fin (selEvents S acc).length) : ℚ :=
  slope (ctxOf first second ε) S.lin ((selEvents S acc).get i)

/-- The intercepts of the selected events. -/
noncomputable def cSel (ε : ℚ) (first second : List Segment) (S : Shp) (acc : List ℕ) (i : _root_.Fin (selEvents S acc).length) : ℚ :=
  icept (ctxOf first second ε) S.lin ((selEvents S acc).get i)

/-- The sides of the selected events. -/
noncomputable abbrev sideSel (h : Fin ε op first second full1 full2 R1 R2 stop S M acc)
    (cl : Close ε op first second full1 full2 stop) :=
  sideOf (darts (h.evs cl)) (kSel ε first second S acc) (cSel ε first second S acc)

theorem Fin.geo' (h : Fin ε op first second full1 full2 R1 R2 stop S M acc)
    (cl : Close ε op first second full1 full2 stop) :
    Geo (darts (h.evs cl)) (kSel ε first second S acc) (cSel ε first second S acc) (ordinate (ctxOf first second ε)) :=
  h.geo cl

theorem Fin.good' (h : Fin ε op first second full1 full2 R1 R2 stop S M acc)
    (cl : Close ε op first second full1 full2 stop) : (darts (h.evs cl)).Good (sideSel h cl) := h.graph cl

theorem sel_left (h : Fin ε op first second full1 full2 R1 R2 stop S M acc)
    (cl : Close ε op first second full1 full2 stop) {i : _root_.Fin (selEvents S acc).length}
    (hi : (darts (h.evs cl)).lf i = true) : (selEvents S acc).get i ∈ chosen S acc ∧ IsL S.lin ((selEvents S acc).get i) ∧
      S.lin.toLeft ((selEvents S acc).get i) = (selEvents S acc).get i ∧
      kSel ε first second S acc i = (ctxOf first second ε).K (S.lin.sid ((selEvents S acc).get i)) ∧
      cSel ε first second S acc i = (ctxOf first second ε).C (S.lin.sid ((selEvents S acc).get i)) := by
  have e : S.lin.toLeft ((selEvents S acc).get i) = (selEvents S acc).get i := toLeft_left hi
  have m := toLeft_chosen h cl (List.get_mem (selEvents S acc) i)
  rw [e] at m
  refine ⟨m, (h.mem_chosen.mp m).1, e, ?_, ?_⟩
  · unfold kSel slope; rw [e]
  · unfold cSel icept; rw [e]

theorem open_X {c : Ctx} {a b p : Point} (hp : p ∈ openSeg a b) (hab : c.X a < c.X b) : c.X a < c.X p ∧ c.X p < c.X b := by
  obtain ⟨t, t0, t1, rfl⟩ := hp
  have : c.X (lerp a b t) = c.X a + t * (c.X b - c.X a) := by unfold Ctx.X lerp; simp only; ring
  rw [this]
  constructor <;> nlinarith

open Classical in
/-- The parity of the edges of a set of darts below a piece. -/
theorem dn_parity (h : Fin ε op first second full1 full2 R1 R2 stop S M acc)
    (cl : Close ε op first second full1 full2 stop) {C : List (_root_.Fin (selEvents S acc).length)} (nd : C.Nodup)
    (no : ∀ d ∈ C, (darts (h.evs cl)).opp d ∉ C) (hev : (darts (h.evs cl)).Ev ((darts (h.evs cl)).span C))
    {i : _root_.Fin (selEvents S acc).length} (hi : (darts (h.evs cl)).lf i = true) {p : Point}
    (hp : p ∈ openSeg (S.lin.start ((selEvents S acc).get i)) (S.lin.end ((selEvents S acc).get i))) :
    bit (dn (darts (h.evs cl)) (kSel ε first second S acc) (cSel ε first second S acc) ((darts (h.evs cl)).span C) i
      ((darts (h.evs cl)).v i)) = downParity ε p ((C.map (selEvents S acc).get).map (dartSeg S)) := by
  set D := darts (h.evs cl) with hD
  set c := ctxOf first second ε with hc
  have G := h.geo' cl
  have w := h.wf
  obtain ⟨i1, i2, i3, i4, i5⟩ := sel_left h cl hi
  have hlr := w.lr _ i2
  have hX := open_X (c := c) hp hlr
  have v1 : D.v i = c.X (S.lin.start ((selEvents S acc).get i)) := by rw [hD, darts_v]; rfl
  have vo : ∀ j, D.v (D.opp j) = c.X (S.lin.end ((selEvents S acc).get j)) := fun j => by rw [hD, darts_v, get_opp]; rfl
  have hpi : c.On (S.lin.sid ((selEvents S acc).get i)) p := by
    have := (mem_pieceOf w i2 p).mp (openSeg_sub hp)
    exact this.1
  rw [G.dn_const hev hi (t1 := D.v i) (t2 := c.X p) le_rfl (by rw [v1]; exact hX.1.le) (by rw [vo]; exact hX.2)]
  -- left halves
  let li : _root_.Fin (selEvents S acc).length → _root_.Fin (selEvents S acc).length := fun d => if D.lf d then d else D.opp d
  have lilf : ∀ d, D.lf (li d) = true := by
    intro d
    show D.lf (if D.lf d then d else D.opp d) = true
    cases hd : D.lf d
    · simp only [Bool.false_eq_true, if_false]
      rw [G.lf_opp, hd]; rfl
    · simp only [if_true]; exact hd
  have lieq : ∀ d, (selEvents S acc).get (li d) = S.lin.toLeft ((selEvents S acc).get d) := by
    intro d
    show (selEvents S acc).get (if D.lf d then d else D.opp d) = _
    cases hd : D.lf d
    · simp only [Bool.false_eq_true, if_false]
      rw [hD, get_opp, toLeft_right]
      rw [hD, darts_lf] at hd
      rw [hd]; simp
    · simp only [if_true]
      rw [toLeft_left]
      rw [hD, darts_lf] at hd
      exact hd
  have hnd : (C.map li).Nodup := by
    unfold List.Nodup
    rw [List.pairwise_map]
    refine List.Pairwise.imp_of_mem ?_ nd
    intro a b ha hb hab q
    have := congrArg (selEvents S acc).get q
    rw [lieq, lieq] at this
    rcases contour_toLeft h cl this with z | z
    · exact hab z
    · exact no b hb (by rw [← z]; exact ha)
  have e1 : downParity ε p ((C.map (selEvents S acc).get).map (dartSeg S)) =
      xorSum (fun s => below ε s p) ((C.map li).map fun j => segOf S ((selEvents S acc).get j)) := by
    unfold downParity
    rw [List.map_map, List.map_map]
    clear hnd nd no hev
    induction C with
    | nil => rfl
    | cons d C ih =>
      rw [List.map_cons, List.map_cons, xorSum, xorSum, ih]
      congr 1
      show below ε (dartSeg S ((selEvents S acc).get d)) p = below ε (segOf S ((selEvents S acc).get (li d))) p
      rw [lieq]
      rcases dartSeg_eq w (((mem_selEvents h).mp (List.get_mem _ d)).1) with k | k <;> rw [k]
      rw [below_reverse]
  rw [e1, xorSum_map_set _ _ hnd]
  congr 1
  unfold dn
  rw [← Finset.sum_subset (Finset.subset_univ (C.map li).toFinset)]
  · refine Finset.sum_congr rfl fun j hj => ?_
    rw [List.mem_toFinset, List.mem_map] at hj
    obtain ⟨d, hd, rfl⟩ := hj
    have hl := lilf d
    have hspan : D.span C (li d) = true := by
      rw [D.span_iff]
      show (if D.lf d then d else D.opp d) ∈ C ∨ D.opp (if D.lf d then d else D.opp d) ∈ C
      cases D.lf d
      · right
        simp only [Bool.false_eq_true, if_false]
        rw [G.opp_opp]; exact hd
      · left; simp only [if_true]; exact hd
    generalize li d = j at hl hspan
    rw [hspan, Bool.true_and]
    congr 1
    rw [Bool.eq_iff_iff, Face.under_iff]
    obtain ⟨j1, j2, j3, j4, j5⟩ := sel_left h cl hl
    rw [segOf_below h.good w j2, i4, i5, j4, j5, vo]
    have vj : D.v j = lx c S.lin ((selEvents S acc).get j) := by rw [hD, darts_v]
    rw [vj]
    have hpy : p.y = c.K (S.lin.sid ((selEvents S acc).get i)) * c.X p + c.C (S.lin.sid ((selEvents S acc).get i)) := hpi
    constructor
    · rintro ⟨_, k1, k2, k3⟩
      refine ⟨k1, k2, ?_⟩
      show c.K (S.lin.sid ((selEvents S acc).get j)) * c.X p + c.C (S.lin.sid ((selEvents S acc).get j)) < p.y
      rw [hpy]
      rcases k3 with k3 | ⟨k3, k4⟩
      · exact k3
      · exfalso
        have hji : j ≠ i := by
          rintro rfl
          exact lt_irrefl _ k4
        rcases eq_or_lt_of_le k1 with q | q
        · refine G.vert j i hi ?_ ?_ ?_
          · rw [v1, vj, q]; exact hX.1
          · rw [vj, vo, q]; exact hX.2
          · have := G.on j
            rw [i4, i5, vj, q] at *
            rw [← k3, ← this, j4, j5]
        · refine G.cross j i hl hi hji (c.X p) (by rw [vj]; exact q) (by rw [vo]; exact k2) (by rw [v1]; exact hX.1)
            (by rw [vo]; exact hX.2) ?_
          rw [i4, i5, j4, j5]; exact k3
    · rintro ⟨k1, k2, k3⟩
      refine ⟨hl, k1, k2, Or.inl ?_⟩
      rw [← hpy]; exact k3
  · intro j _ hj
    rw [List.mem_toFinset, List.mem_map] at hj
    by_cases hl : D.lf j = true
    · have : D.span C j = false := by
        rw [D.span_false]
        refine ⟨fun k => hj ⟨j, k, ?_⟩, fun k => hj ⟨D.opp j, k, ?_⟩⟩
        · show (if D.lf j then j else D.opp j) = j
          rw [if_pos hl]
        · show (if D.lf (D.opp j) then D.opp j else D.opp (D.opp j)) = j
          rw [G.lf_opp, hl]
          simp only [Bool.not_true, Bool.false_eq_true, if_false]
          exact G.opp_opp j
      rw [this]; rfl
    · simp only [Bool.not_eq_true] at hl
      unfold Face.under
      rw [hl]; simp

end

end Rene.Sweep
