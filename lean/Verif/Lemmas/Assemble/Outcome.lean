import Verif.Lemmas.Assemble.Sides

/-! What the assembly gives. -/

namespace Rene.Sweep
open Rene Spec Face Assemble

/-! ### Reversing a contour -/

theorem reverseVertices_eq (vs : List Point) : Shp.reverseVertices vs = rotateSequence vs := by
  cases vs with
  | nil => rfl
  | cons v l => simp [Shp.reverseVertices, rotateSequence]

theorem noOverlap_dir {X Y Y' : List Segment} (h : NoOverlap (Y ++ X)) (hY : Y'.Perm (Y.map Segment.reverse)) :
    NoOverlap (Y' ++ X) := by
  refine noOverlap_perm (hY.append_right X).symm ?_
  obtain ⟨h1, h2⟩ := h
  rw [List.pairwise_append] at h2
  obtain ⟨a, b, c⟩ := h2
  refine ⟨fun s hs => ?_, List.pairwise_append.mpr ⟨?_, b, fun s hs t ht => ?_⟩⟩
  · rcases List.mem_append.mp hs with k | k
    · obtain ⟨t, ht, rfl⟩ := List.mem_map.mp k
      exact (h1 t (List.mem_append_left _ ht)).symm
    · exact h1 s (List.mem_append_right _ k)
  · refine a.map _ fun s t hst => ?_
    unfold Apart at *
    rw [segPts_reverse', segPts_reverse']; exact hst
  · obtain ⟨s', hs', rfl⟩ := List.mem_map.mp hs
    have := c s' hs' t ht
    unfold Apart at *
    rw [segPts_reverse']; exact this

/-- What a finished contour keeps of the found one. -/
structure Same (vs ws : List Point) (o : Orientation) : Prop where
  simple : SimpleContour ⟨ws⟩
  sub : ∀ v ∈ ws, v ∈ vs
  par : ∀ ε p, downParity ε p (toContourSegments ws) = downParity ε p (toContourSegments vs)
  pts : segsPts (toContourSegments ws) = segsPts (toContourSegments vs)
  noOv : ∀ X, NoOverlap (toContourSegments vs ++ X) → NoOverlap (toContourSegments ws ++ X)
  ori : (⟨ws⟩ : Contour).orientation = o

theorem finish_same {vs : List Point} (hs : SimpleContour ⟨vs⟩) (hc : (⟨vs⟩ : Contour).orientation = .counterclockwise)
    (b : Bool) : Same vs (if b = true then Shp.reverseVertices (shrinkCollinearVertices vs) else shrinkCollinearVertices vs)
      (if b = true then .clockwise else .counterclockwise) := by
  have T := thin_shrink hs
  cases b with
  | false =>
    simp only [Bool.false_eq_true, if_false]
    exact ⟨T.simple, T.sub, T.par, T.pts, T.noOv, T.ori.trans hc⟩
  | true =>
    simp only [if_true]
    rw [reverseVertices_eq]
    set ws := shrinkCollinearVertices vs with hws
    have hrot := rotateSequence_rot ws
    have hl : (rotateSequence ws).length = ws.length := by rw [hrot.perm.length_eq, List.length_reverse]
    have hp : (toContourSegments (rotateSequence ws)).Perm ((toContourSegments ws).map Segment.reverse) :=
      (toContourSegments_rotated hrot).trans (toContourSegments_reverse ws)
    obtain ⟨s1, s2, s3⟩ := T.simple
    refine ⟨⟨by show 3 ≤ (rotateSequence ws).length; rw [hl]; exact s1, ?_, ?_⟩, fun v hv => T.sub v ?_, fun ε p => ?_, ?_,
      fun X hX => noOverlap_dir (T.noOv X hX) hp, ?_⟩
    · exact hrot.perm.nodup_iff.mpr (List.nodup_reverse.mpr s2)
    · exact fullyNoded_perm hp.symm (fullyNoded_reverse s3)
    · rw [hrot.perm.mem_iff, List.mem_reverse] at hv; exact hv
    · rw [← T.par]; exact SameEdges.downParity (Or.inr hp) ε p
    · rw [← T.pts]; exact SameEdges.segsPts (Or.inr hp)
    · have o := (C25_orientation ⟨rotateSequence ws⟩ ⟨ws⟩ (by show 3 ≤ (rotateSequence ws).length; rw [hl]; exact s1) s2).2 hrot
      exact o.1.mpr (T.ori.trans hc)

theorem noOverlap_each {α : Type} (f g : α → List Segment) : ∀ (l : List α) (X : List Segment),
    (∀ j ∈ l, ∀ X, NoOverlap (f j ++ X) → NoOverlap (g j ++ X)) → NoOverlap (l.flatMap f ++ X) → NoOverlap (l.flatMap g ++ X)
  | [], X, _, h => h
  | j :: l, X, hj, h => by
    rw [List.flatMap_cons, List.append_assoc] at h ⊢
    have h1 := hj j (by simp) _ h
    have h2 := noOverlap_each f g l (g j ++ X) (fun i hi => hj i (by simp [hi])) (noOverlap_perm (by
      rw [← List.append_assoc, ← List.append_assoc]
      exact List.perm_append_comm.append_right X) h1)
    refine noOverlap_perm ?_ h2
    rw [← List.append_assoc, ← List.append_assoc]
    exact List.perm_append_comm.append_right X

/-! ### The result -/

/-- The polygons made of the pieces `segs`. -/
structure Outcome (ε : ℚ) (P : Finset Point) (segs : List Segment) (ps : List Polygon) : Prop where
  simple : ∀ c ∈ ps.flatMap polygonContours, SimpleContour c
  border : ∀ p ∈ ps, p.border.orientation = .counterclockwise
  holes : ∀ p ∈ ps, ∀ k ∈ p.holes, k.orientation = .clockwise
  noOv : ∀ X, NoOverlap (segs ++ X) → NoOverlap ((ps.flatMap polygonContours).flatMap Contour.segments ++ X)
  mem : ∀ c ∈ ps.flatMap polygonContours, ∀ v ∈ c.vertices, v ∈ P
  par : ∀ p, xorAll (fun c : Contour => downParity ε p c.segments) (ps.flatMap polygonContours) = downParity ε p segs
  pts : segsPts ((ps.flatMap polygonContours).flatMap Contour.segments) = segsPts segs

theorem xorAll_perm {α : Type} {g : α → Bool} {l l' : List α} (h : l.Perm l') : xorAll g l = xorAll g l' := by
  induction h with
  | nil => rfl
  | cons x _ ih => simp only [xorAll, ih]
  | swap x y l =>
    simp only [xorAll]
    rw [← Bool.xor_assoc, ← Bool.xor_assoc, Bool.xor_comm (g y)]
  | trans _ _ h1 h2 => exact h1.trans h2

section
variable {ε : ℚ} {op : ShpOp} {first second full1 full2 : List Segment} {R1 R2 : Set Point} {stop : Point → Bool}
  {S : Shp} {M : Mix} {acc : List ℕ}

/-- A found contour is counterclockwise. -/
theorem contour_ccw (h : Fin ε op first second full1 full2 R1 R2 stop S M acc)
    (cl : Close ε op first second full1 full2 stop) {U : _root_.Fin (selEvents S acc).length → Bool}
    {e : _root_.Fin (selEvents S acc).length} {s : List (_root_.Fin (selEvents S acc).length)}
    (hU : (darts (h.evs cl)).Ev U) (hlf : (darts (h.evs cl)).lf e = true)
    (hmin : ∀ x, U x = true → (darts (h.evs cl)).rank e ≤ (darts (h.evs cl)).rank x)
    (hs : IsContour (darts (h.evs cl)) (sideSel h cl) U e s) :
    (⟨S.rawVertices (s.map (selEvents S acc).get)⟩ : Contour).orientation = .counterclockwise := by
  have sc := contour_simple h cl hs
  obtain ⟨r1, r2⟩ := contour_raw h cl hs
  have w := h.wf
  have he : e ∈ s := List.mem_of_mem_head? hs.head
  have hg : Gen ε (· ∈ S.rawVertices (s.map (selEvents S acc).get)) := by
    have hm : ∀ u ∈ S.rawVertices (s.map (selEvents S acc).get), u ∈ (ctxOf first second ε).P := by
      intro u hu
      rw [r1, List.mem_map] at hu
      obtain ⟨x, hx, rfl⟩ := hu
      obtain ⟨i, _, rfl⟩ := List.mem_map.mp hx
      exact w.memP _ ((mem_selEvents h).mp (List.get_mem _ i)).1
    intro u hu v hv huv
    exact h.good.mono u (hm u hu) v (hm v hv) huv
  have lt := h.start_lt (sel_left h cl hlf).1
  have hz : lerp (S.lin.start ((selEvents S acc).get e)) (S.lin.end ((selEvents S acc).get e)) (1 / 2) ∈
      openSeg (S.lin.start ((selEvents S acc).get e)) (S.lin.end ((selEvents S acc).get e)) :=
    ⟨1 / 2, by norm_num, by norm_num, rfl⟩
  have cp := (contour_parity (c := ⟨S.rawVertices (s.map (selEvents S acc).get)⟩) sc hg).2
    (dartSeg S ((selEvents S acc).get e)) (by
      show _ ∈ toContourSegments _
      rw [r2]
      exact List.mem_map_of_mem (List.mem_map_of_mem he)) _ hz
  have e2 : (⟨S.rawVertices (s.map (selEvents S acc).get)⟩ : Contour).segments =
    (s.map (selEvents S acc).get).map (dartSeg S) := r2
  rw [e2, ← dn_parity h cl (List.Nodup.of_map _ hs.vnd) hs.no hs.ev hlf hz] at cp
  have hin := (hs.inside (h.good' cl) hU hlf hmin he).2
  unfold sideSel sideOf at hin
  rw [(h.geo' cl).lf_opp, hlf, (h.geo' cl).opp_opp] at hin
  simp only [Bool.not_true, Bool.false_eq_true, if_false] at hin
  rw [hin, (goesUp_iff lt.ne).mpr lt] at cp
  simpa using cp.symm

/-- The assembly of the selected events gives polygons. -/
theorem Fin.reduced (h : Fin ε op first second full1 full2 R1 R2 stop S M acc)
    (gl : Glue ε op first second full1 full2 stop) (cl : Close ε op first second full1 full2 stop) :
    ∃ a Cs, AsmInv (h.evs cl) (sideSel h cl) a Cs (selEvents S acc).length ∧
      (∀ j < Cs.length, Same (S.rawVertices ((Cs.getD j []).map (selEvents S acc).get)) (a.vertices.getD j [])
        (if a.internal.getD j false = true then .clockwise else .counterclockwise)) ∧
      S.reduceEvents acc = .ok (polys Cs.length (fun j => a.internal.getD j false) (fun j => a.parents.getD j none)
        (fun j => a.vertices.getD j [])) := by
  obtain ⟨a, Cs, ha, hI⟩ := h.assembled gl cl
  have hI' : AsmInv (h.evs cl) (sideSel h cl) a Cs (selEvents S acc).length := hI
  have hsame : ∀ j < Cs.length, Same (S.rawVertices ((Cs.getD j []).map (selEvents S acc).get)) (a.vertices.getD j [])
        (if a.internal.getD j false = true then .clockwise else .counterclockwise) := by
    intro j hj
    rw [hI.vert j hj]
    have hmem : Cs.getD j [] ∈ Cs := by
      rw [List.getD_eq_getElem _ _ hj]; exact List.getElem_mem hj
    obtain ⟨U, e, u1, u2, u3, u4⟩ := Peeled.contour (h.good' cl) (h.ev gl cl) hI'.peeled _ hmem
    exact finish_same (contour_simple h cl u4) (contour_ccw h cl u1 u2 u3 u4) _
  refine ⟨a, Cs, hI', hsame, ?_⟩
  unfold Shp.reduceEvents
  by_cases hn : acc.filter S.isFromResult = []
  · -- nothing is selected
    simp only [hn, if_true]
    have hl : (selEvents S acc).length = 0 := by
      unfold selEvents
      rw [(sortEvents_perm S _).length_eq, hn]; rfl
    have hC : Cs.length = 0 := by
      cases Cs with
      | nil => rfl
      | cons C Cs =>
        obtain ⟨U, e, _, _⟩ := Peeled.contour (h.good' cl) (h.ev gl cl) hI'.peeled C (by simp)
        have := e.2
        omega
    rw [hC]; rfl
  · simp only [hn, if_false]
    have hE : S.sortEvents (acc.filter S.isFromResult) = selEvents S acc := rfl
    rw [hE]
    have hall : (selEvents S acc).all (fun event => ((Shp.toEventsIds S.lin.endpoints.length (selEvents S acc)).getD
        (S.lin.opp event) none).isSome) = true := by
      rw [List.all_eq_true]
      intro x hx
      obtain ⟨i, hi⟩ := List.mem_iff_get.mp (opp_selEvents h cl hx)
      have := eventsIds_get (h.evs cl) i
      rw [hi] at this
      rw [this]; rfl
    rw [hall, ha]
    simp only [Bool.not_true, Bool.false_eq_true, if_false]
    exact polygons_spec hI.vlen (fun j hj => (hsame j hj).simple.1) hI.par hI.holes

theorem noOverlap_of_noded {l : List Segment} (h : FullyNoded l) : NoOverlap l := ⟨h.1, h.2.imp fun k => k.1⟩

theorem Fin.outcome (h : Fin ε op first second full1 full2 R1 R2 stop S M acc)
    (gl : Glue ε op first second full1 full2 stop) (cl : Close ε op first second full1 full2 stop) {a : Shp.Asm}
    {Cs : List (List (_root_.Fin (selEvents S acc).length))}
    (hI : AsmInv (h.evs cl) (sideSel h cl) a Cs (selEvents S acc).length)
    (hsame : ∀ j < Cs.length, Same (S.rawVertices ((Cs.getD j []).map (selEvents S acc).get)) (a.vertices.getD j [])
        (if a.internal.getD j false = true then .clockwise else .counterclockwise)) :
    Outcome ε (ctxOf first second ε).P ((chosen S acc).map (segOf S)) (polys Cs.length (fun j => a.internal.getD j false)
      (fun j => a.parents.getD j none) (fun j => a.vertices.getD j [])) := by
  set m := Cs.length with hm
  set V := fun j => a.vertices.getD j [] with hV
  set raw := fun j => S.rawVertices ((Cs.getD j []).map (selEvents S acc).get) with hraw
  have hp := polys_perm (m := m) hI.par V
  have g := h.good' cl
  have w := h.wf
  have hmemC : ∀ j < m, Cs.getD j [] ∈ Cs := fun j hj => by
    rw [List.getD_eq_getElem _ _ hj]; exact List.getElem_mem hj
  have hrawseg : ∀ j < m, raw j = ((Cs.getD j []).map (selEvents S acc).get).map S.lin.start ∧
      toContourSegments (raw j) = ((Cs.getD j []).map (selEvents S acc).get).map (dartSeg S) := by
    intro j hj
    obtain ⟨U, e, _, _, _, u4⟩ := Peeled.contour g (h.ev gl cl) hI.peeled _ (hmemC j hj)
    exact contour_raw h cl u4
  -- all the found edges
  have hflat : (List.range m).flatMap (fun j => toContourSegments (raw j)) =
      (Cs.flatten.map (selEvents S acc).get).map (dartSeg S) := by
    have e1 : (List.range m).flatMap (fun j => toContourSegments (raw j)) =
        (List.range m).flatMap fun j => ((Cs.getD j []).map (selEvents S acc).get).map (dartSeg S) := by
      rw [List.flatMap_def, List.flatMap_def]
      congr 1
      exact List.map_congr_left fun j hj => (hrawseg j (List.mem_range.mp hj)).2
    have e2 : (List.range m).map (fun j => Cs.getD j []) = Cs := by
      refine List.ext_getElem (by simp [hm]) fun j h1 h2 => ?_
      rw [List.getElem_map, List.getElem_range, List.getD_eq_getElem _ _ h2]
    have e3 : (List.range m).flatMap (fun j => ((Cs.getD j []).map (selEvents S acc).get).map (dartSeg S)) =
        Cs.flatMap fun C => (C.map (selEvents S acc).get).map (dartSeg S) := by
      conv_rhs => rw [← e2]
      rw [List.flatMap_map]
    rw [e1, e3, List.map_map, List.map_flatten, List.flatMap_def]
    congr 1
    exact List.map_congr_left fun C _ => List.map_map
  have hcp := contours_perm h cl g (h.ev gl cl) hI.peeled fun i => hI.done i i.2
  have hdir : ∀ i : _root_.Fin (selEvents S acc).length,
      dartSeg S ((selEvents S acc).get i) = segOf S (S.lin.toLeft ((selEvents S acc).get i)) ∨
      dartSeg S ((selEvents S acc).get i) = (segOf S (S.lin.toLeft ((selEvents S acc).get i))).reverse := fun i =>
    dartSeg_eq w ((mem_selEvents h).mp (List.get_mem _ i)).1
  have hchosen : ((Cs.flatten.map (selEvents S acc).get).map fun x => segOf S (S.lin.toLeft x)).Perm
      ((chosen S acc).map (segOf S)) := by
    have := hcp.map (segOf S)
    rw [List.map_map] at this
    exact this
  have hedges : (polys m (fun j => a.internal.getD j false) (fun j => a.parents.getD j none) V).flatMap polygonContours
      |>.Perm ((List.range m).map fun i => (⟨V i⟩ : Contour)) := hp
  have hsegs : ((polys m (fun j => a.internal.getD j false) (fun j => a.parents.getD j none) V).flatMap polygonContours).flatMap
      Contour.segments |>.Perm ((List.range m).flatMap fun i => toContourSegments (V i)) := by
    refine (hedges.flatMap_right _).trans ?_
    rw [List.flatMap_map]
    exact List.Perm.refl _
  have hc : ∀ c ∈ (polys m (fun j => a.internal.getD j false) (fun j => a.parents.getD j none) V).flatMap polygonContours,
      ∃ j < m, c = ⟨V j⟩ := by
    intro c hc
    obtain ⟨j, hj, e⟩ := List.mem_map.mp (hedges.mem_iff.mp hc)
    exact ⟨j, List.mem_range.mp hj, e.symm⟩
  have hpoly : ∀ p ∈ polys m (fun j => a.internal.getD j false) (fun j => a.parents.getD j none) V, ∃ j < m,
      a.internal.getD j false = false ∧ p = ⟨⟨V j⟩, (holesOf m (fun j => a.parents.getD j none) j).map fun i => ⟨V i⟩⟩ := by
    intro p hp
    unfold polys at hp
    rw [List.mem_flatMap] at hp
    obtain ⟨j, hj, k⟩ := hp
    rw [List.mem_range] at hj
    beta_reduce at k
    by_cases hi : a.internal.getD j false = true
    · rw [if_pos hi] at k
      cases k
    · rw [if_neg hi, List.mem_singleton] at k
      exact ⟨j, hj, by simpa using hi, k⟩
  refine ⟨?_, ?_, ?_, ?_, ?_, ?_, ?_⟩
  · intro c k
    obtain ⟨j, hj, rfl⟩ := hc c k
    exact (hsame j hj).simple
  · intro p k
    obtain ⟨j, hj, hi, rfl⟩ := hpoly p k
    have := (hsame j hj).ori
    rw [hi, if_neg (by simp)] at this
    exact this
  · intro p k c hcc
    obtain ⟨j, hj, hi, rfl⟩ := hpoly p k
    obtain ⟨i, hi', rfl⟩ := List.mem_map.mp hcc
    obtain ⟨i1, i2⟩ := mem_holesOf.mp hi'
    have := (hsame i i1).ori
    have hin : a.internal.getD i false = true := by
      by_contra q
      rw [Bool.not_eq_true] at q
      have := (hI.par i i1).2 q
      rw [this] at i2
      cases i2
    rw [hin, if_pos rfl] at this
    exact this
  · intro X hX
    refine noOverlap_perm (hsegs.symm.append_right X) ?_
    have h0 : NoOverlap ((List.range m).flatMap (fun j => toContourSegments (raw j)) ++ X) := by
      rw [hflat]
      refine noOverlap_of_perm ?_ hX
      rw [List.map_append, List.map_append]
      refine List.Perm.append_right _ ?_
      refine (hchosen.map segPts).symm.trans (List.Perm.of_eq ?_)
      rw [List.map_map, List.map_map, List.map_map]
      rw [List.map_map]
      refine List.map_congr_left fun i _ => ?_
      rcases hdir i with k | k
      · exact (congrArg segPts k).symm
      · exact ((congrArg segPts k).trans (segPts_reverse' _)).symm
    exact noOverlap_each (fun j => toContourSegments (raw j)) (fun j => toContourSegments (V j)) (List.range m) X
      (fun j hj X hX => (hsame j (List.mem_range.mp hj)).noOv X hX) h0
  · intro c k v hv
    obtain ⟨j, hj, rfl⟩ := hc c k
    have := (hsame j hj).sub v hv
    have e1 := (hrawseg j hj).1
    have hv' : v ∈ raw j := this
    rw [e1, List.mem_map] at hv'
    obtain ⟨x, hx, rfl⟩ := hv'
    obtain ⟨i, _, rfl⟩ := List.mem_map.mp hx
    exact w.memP _ ((mem_selEvents h).mp (List.get_mem _ i)).1
  · intro p
    rw [xorAll_perm hedges]
    have e1 : xorAll (fun c : Contour => downParity ε p c.segments) ((List.range m).map fun i => (⟨V i⟩ : Contour)) =
        xorAll (fun i => downParity ε p (toContourSegments (V i))) (List.range m) := by
      induction List.range m with
      | nil => rfl
      | cons i l ih => rw [List.map_cons, xorAll, xorAll, ih]; rfl
    rw [e1, xorAll_congr fun i hi => (hsame i (List.mem_range.mp hi)).par ε p, ← downParity_flatMap, hflat]
    unfold downParity
    rw [← xorSum_perm hchosen]
    induction Cs.flatten with
    | nil => rfl
    | cons i l ih =>
      simp only [List.map_cons, xorSum]
      rw [ih]
      congr 1
      rcases hdir i with k | k <;> rw [k]
      rw [below_reverse]
  · ext p
    have e1 : p ∈ segsPts ((List.range m).flatMap fun i => toContourSegments (V i)) ↔
        p ∈ segsPts ((List.range m).flatMap fun i => toContourSegments (raw i)) := by
      rw [segsPts_flatMap, segsPts_flatMap]
      constructor
      · rintro ⟨i, hi, k⟩
        exact ⟨i, hi, by rw [← (hsame i (List.mem_range.mp hi)).pts]; exact k⟩
      · rintro ⟨i, hi, k⟩
        exact ⟨i, hi, by rw [(hsame i (List.mem_range.mp hi)).pts]; exact k⟩
    rw [segsPts_perm hsegs, e1, hflat, ← segsPts_perm hchosen]
    constructor
    · rintro ⟨s, hs, k⟩
      rw [List.mem_map] at hs
      obtain ⟨x, hx, rfl⟩ := hs
      refine ⟨segOf S (S.lin.toLeft x), List.mem_map_of_mem hx, ?_⟩
      obtain ⟨i, _, rfl⟩ := List.mem_map.mp hx
      rcases hdir i with q | q <;> rw [q] at k
      · exact k
      · rw [segPts_reverse'] at k; exact k
    · rintro ⟨s, hs, k⟩
      rw [List.mem_map] at hs
      obtain ⟨x, hx, rfl⟩ := hs
      refine ⟨dartSeg S x, List.mem_map_of_mem hx, ?_⟩
      obtain ⟨i, _, rfl⟩ := List.mem_map.mp hx
      rcases hdir i with q | q <;> rw [q]
      · exact k
      · rw [segPts_reverse']; exact k

end

end Rene.Sweep
