import Verif.Model.ConstrainedDelaunay
import Verif.Model.ContourOps
import Verif.Lemmas.Relating
import Verif.Props.Mesh

/-! # C56: constrained Delaunay triangulation of polygons -/

namespace Rene
open Spec Mesh

theorem bind_ok {ε α β : Type} {x : Except ε α} {f : α → Except ε β} {b : β} :
    (x >>= f) = .ok b ↔ ∃ a, x = .ok a ∧ f a = .ok b := by
  cases x with
  | error e => constructor
               · intro h; cases h
               · rintro ⟨a, h, _⟩; cases h
  | ok a => constructor
            · intro h; exact ⟨a, rfl, h⟩
            · rintro ⟨a', h, h'⟩; cases h; exact h'

/-! ### The points of the mesh -/

theorem mem_groupVertices {l : List (VertexPosition × Point)} {p : Point} :
    p ∈ (groupVertices l).map Prod.fst ↔ p ∈ l.map Prod.snd := by
  induction l with
  | nil => simp [groupVertices]
  | cons v rest ih =>
    rw [groupVertices]
    rcases h : groupVertices rest with _ | ⟨⟨q, g⟩, groups⟩
    · rw [h] at ih
      simp only [List.map_nil, List.not_mem_nil, false_iff] at ih
      simp only [List.map_cons, List.map_nil, List.mem_cons, ih]
      simp
    · rw [h] at ih
      dsimp only
      by_cases c : v.2 = q
      · rw [if_pos c]
        simp only [List.map_cons, List.mem_cons] at ih ⊢
        rw [ih, c]
        constructor
        · exact Or.inr
        · rintro (h1 | h1)
          · exact ih.mp (Or.inl h1)
          · exact h1
      · rw [if_neg c]
        simp only [List.map_cons, List.mem_cons] at ih ⊢
        rw [ih]

theorem groupVertices_head {v : VertexPosition × Point} {l : List (VertexPosition × Point)} :
    ∃ g groups, groupVertices (v :: l) = (v.2, g) :: groups := by
  rw [groupVertices]
  rcases groupVertices l with _ | ⟨⟨q, g⟩, groups⟩
  · exact ⟨_, _, rfl⟩
  · dsimp only
    by_cases c : v.2 = q
    · rw [if_pos c, c]; exact ⟨_, _, rfl⟩
    · rw [if_neg c]; exact ⟨_, _, rfl⟩

theorem groupVertices_sorted : ∀ {l : List (VertexPosition × Point)}, l.Pairwise (fun a b => a.2 ≤ b.2) →
    ((groupVertices l).map Prod.fst).Pairwise (· < ·)
  | [], _ => by simp [groupVertices]
  | v :: rest, h => by
    have ih := groupVertices_sorted h.of_cons
    have hm : ∀ p ∈ (groupVertices rest).map Prod.fst, v.2 ≤ p := by
      intro p hp
      rw [mem_groupVertices, List.mem_map] at hp
      obtain ⟨w, hw, rfl⟩ := hp
      exact List.rel_of_pairwise_cons h hw
    rw [groupVertices]
    rcases e : groupVertices rest with _ | ⟨⟨q, g⟩, groups⟩
    · simp
    · rw [e] at ih hm
      dsimp only
      by_cases c : v.2 = q
      · rw [if_pos c]; simpa using ih
      · rw [if_neg c]
        simp only [List.map_cons, List.pairwise_cons] at ih ⊢
        refine ⟨?_, ih⟩
        have h1 : v.2 < q := lt_of_le_of_ne (hm q (by simp)) c
        intro p hp
        rcases List.mem_cons.mp hp with rfl | hp
        · exact h1
        · exact h1.trans (ih.1 p hp)

theorem groupVertices_pos {v : VertexPosition × Point} : ∀ {l : List (VertexPosition × Point)},
    l.Pairwise (fun a b => a.2 ≤ b.2) → v ∈ l → ∀ g ∈ groupVertices l, g.1 = v.2 → v.1 ∈ g.2
  | [], _, hv => by simp at hv
  | w :: rest, h, hv => by
    have ih := groupVertices_pos (v := v) h.of_cons
    have hs := groupVertices_sorted h.of_cons
    have hs2 := groupVertices_sorted h
    rw [groupVertices] at hs2 ⊢
    rcases e : groupVertices rest with _ | ⟨⟨q, g⟩, groups⟩
    · rw [e] at ih hs hs2
      have hr : rest = [] := by
        rcases rest with _ | ⟨u, us⟩
        · rfl
        · obtain ⟨_, _, h1⟩ := groupVertices_head (v := u) (l := us)
          rw [h1] at e; cases e
      subst hr
      rw [List.mem_singleton] at hv
      subst hv
      simp
    · rw [e] at ih hs hs2
      dsimp only at hs2 ⊢
      by_cases c : w.2 = q
      · rw [if_pos c] at hs2 ⊢
        intro k hk hkv
        rcases List.mem_cons.mp hk with rfl | hk1
        · rcases List.mem_cons.mp hv with rfl | hv
          · simp
          · exact List.mem_cons_of_mem _ (ih hv (q, g) (by simp) hkv)
        · rcases List.mem_cons.mp hv with rfl | hv
          · simp only [List.map_cons, List.pairwise_cons] at hs
            exact absurd (hs.1 k.1 (List.mem_map_of_mem hk1)) (by rw [hkv, c]; exact lt_irrefl _)
          · exact ih hv k (List.mem_cons_of_mem _ hk1) hkv
      · rw [if_neg c] at hs2 ⊢
        intro k hk hkv
        simp only [List.map_cons, List.pairwise_cons] at hs2
        rcases List.mem_cons.mp hk with rfl | hk1
        · rcases List.mem_cons.mp hv with rfl | hv
          · simp
          · have : v.2 ∈ (groupVertices rest).map Prod.fst := mem_groupVertices.mpr (List.mem_map_of_mem hv)
            rw [e, List.map_cons] at this
            exact absurd (hs2.1 v.2 this) (by rw [← hkv]; exact lt_irrefl _)
        · rcases List.mem_cons.mp hv with rfl | hv
          · have : k.1 ∈ q :: groups.map Prod.fst := by
              rw [← List.map_cons (f := Prod.fst) (a := (q, g))]; exact List.mem_map_of_mem hk1
            exact absurd (hs2.1 k.1 this) (by rw [hkv]; exact lt_irrefl _)
          · exact ih hv k hk1 hkv

theorem mem_toContourVertices_index {cs : List (List Point)} {k : Nat} {c : List Point} (hk : cs[k]? = some c)
    {p : Point} (hp : p ∈ c) : ∃ i, (⟨k, i⟩, p) ∈ toContourVertices cs := by
  have h1 : (c, k) ∈ cs.zipIdx := List.mem_zipIdx_iff_getElem?.mpr hk
  have hne : c ≠ [] := List.ne_nil_of_mem hp
  rw [toContourVertices]
  simp only [List.mem_append, List.mem_flatMap, List.mem_map]
  rw [← List.dropLast_append_getLast hne, List.mem_append, List.mem_singleton] at hp
  rcases hp with hp | hp
  · obtain ⟨j, hj⟩ := List.mem_iff_getElem?.mp hp
    exact ⟨j, Or.inl ⟨_, h1, (p, j), List.mem_zipIdx_iff_getElem?.mpr hj, rfl⟩⟩
  · refine ⟨c.length - 1, Or.inr ⟨_, h1, ?_⟩⟩
    dsimp only
    rw [List.getLastD_eq_getLast?, List.getLast?_eq_some_getLast hne, hp]
    rfl

theorem mem_toContourVertices {cs : List (List Point)} (hc : ∀ c ∈ cs, c ≠ []) {p : Point} :
    p ∈ (toContourVertices cs).map Prod.snd ↔ ∃ c ∈ cs, p ∈ c := by
  have hz : ∀ {α : Type} (l : List α) (n : Nat) (x : α), (∃ i, (x, i) ∈ l.zipIdx n) ↔ x ∈ l := by
    intro α l
    induction l with
    | nil => simp
    | cons a l ih =>
      intro n x
      simp only [List.zipIdx_cons, List.mem_cons, Prod.mk.injEq, ← ih (n + 1) x]
      constructor
      · rintro ⟨i, ⟨h, _⟩ | h⟩
        · exact Or.inl h
        · exact Or.inr ⟨i, h⟩
      · rintro (h | ⟨i, h⟩)
        · exact ⟨n, Or.inl ⟨h, rfl⟩⟩
        · exact ⟨i, Or.inr h⟩
  simp only [toContourVertices, List.map_append, List.mem_append, List.mem_map, List.mem_flatMap]
  constructor
  · rintro (⟨v, ⟨⟨c, i⟩, hci, ⟨⟨q, j⟩, hq, rfl⟩⟩, rfl⟩ | ⟨v, ⟨⟨c, i⟩, hci, rfl⟩, rfl⟩)
    · exact ⟨c, (hz _ _ _).mp ⟨i, hci⟩, List.dropLast_subset _ ((hz _ _ _).mp ⟨j, hq⟩)⟩
    · have h1 := (hz _ _ _).mp ⟨i, hci⟩
      refine ⟨c, h1, ?_⟩
      dsimp only
      rw [List.getLastD_eq_getLast?, List.getLast?_eq_some_getLast (hc c h1)]
      exact List.getLast_mem _
  · rintro ⟨c, h1, h2⟩
    obtain ⟨i, hi⟩ := (hz cs 0 c).mpr h1
    have hne := hc c h1
    rw [← List.dropLast_append_getLast hne, List.mem_append, List.mem_singleton] at h2
    rcases h2 with h2 | h2
    · obtain ⟨j, hj⟩ := (hz c.dropLast 0 p).mpr h2
      exact Or.inl ⟨_, ⟨_, hi, ⟨_, hj, rfl⟩⟩, rfl⟩
    · right
      refine ⟨_, ⟨_, hi, rfl⟩, ?_⟩
      dsimp only
      rw [List.getLastD_eq_getLast?, List.getLast?_eq_some_getLast hne, h2]
      rfl

theorem mem_toPolygonVertices {cs : List (List Point)} (hc : ∀ c ∈ cs, c ≠ []) {p : Point} :
    p ∈ (toPolygonVertices cs).map Prod.fst ↔ ∃ c ∈ cs, p ∈ c := by
  rw [toPolygonVertices, mem_groupVertices, ← mem_toContourVertices hc]
  simp only [List.mem_map, List.mem_insertionSort]

theorem sorted_toContourVertices (cs : List (List Point)) :
    ((toContourVertices cs).insertionSort fun a b => (!b.2.ltB a.2) = true).Pairwise (fun a b => a.2 ≤ b.2) := by
  have : Std.Total (fun a b : VertexPosition × Point => (!b.2.ltB a.2) = true) := ⟨fun a b => by
    rw [Bool.not_eq_true', Bool.not_eq_true', ← Bool.not_eq_true, ← Bool.not_eq_true,
      Point.ltB_iff, Point.ltB_iff, not_lt, not_lt]
    exact le_total _ _⟩
  have : IsTrans _ (fun a b : VertexPosition × Point => (!b.2.ltB a.2) = true) := ⟨fun a b c h1 h2 => by
    rw [Bool.not_eq_true', ← Bool.not_eq_true, Point.ltB_iff] at h1 h2 ⊢
    exact not_lt.mpr ((not_lt.mp h1).trans (not_lt.mp h2))⟩
  have h := List.pairwise_insertionSort (fun a b : VertexPosition × Point => (!b.2.ltB a.2) = true)
    (toContourVertices cs)
  refine h.imp ?_
  intro a b hab
  rw [Bool.not_eq_true', ← Bool.not_eq_true, Point.ltB_iff, not_lt] at hab
  exact hab

theorem toPolygonVertices_sorted (cs : List (List Point)) : ((toPolygonVertices cs).map Prod.fst).Pairwise (· < ·) :=
  groupVertices_sorted (sorted_toContourVertices cs)

/-! ### The triangles -/

/-- The mesh has the given points and its edges join some of them. -/
def Fit (points : List Point) (m : Mesh) : Prop := m.endpoints = points ∧ (points ≠ [] → InRange m)

theorem Fit.startIndex {P : List Point} {m : Mesh} (h : Fit P m) (hP : P ≠ []) (e : Nat) :
    m.toStartIndex e < P.length := by
  unfold toStartIndex
  rw [List.getD_eq_getElem?_getD]
  rcases h1 : m.startsIndices[e / 2]? with _ | i
  · exact List.length_pos_iff.mpr hP
  · have := h.2 hP i (List.mem_of_getElem? h1)
    rw [h.1] at this; exact this

theorem Fit.start {P : List Point} {m : Mesh} (h : Fit P m) (hP : P ≠ []) (e : Nat) : m.toStart e ∈ P := by
  have := h.startIndex hP e
  unfold toStart
  rw [h.1, List.getD_eq_getElem?_getD, List.getElem?_eq_getElem this]
  exact List.getElem_mem this

theorem Fit.swap {P : List Point} {m : Mesh} (h : Fit P m) (e : Nat) : Fit P (m.swapDiagonal e) := by
  refine ⟨by rw [swap_endpoints]; exact h.1, fun hP i hi => ?_⟩
  have h1 : ∀ i ∈ m.startsIndices.set (e / 2) (m.toEndIndex (m.toRightFromStart e)), i < P.length := by
    intro i hi
    rcases List.mem_or_eq_of_mem_set hi with h1 | rfl
    · have := h.2 hP i h1; rw [h.1] at this; exact this
    · exact h.startIndex hP _
  rw [swap_endpoints, h.1]
  rw [swapDiagonal_eq] at hi
  have hi' : i ∈ m.swapStarts e := hi
  simp only [swapStarts] at hi'
  rcases List.mem_or_eq_of_mem_set hi' with h2 | h2
  · exact h1 i h2
  · rw [h2, List.getD_eq_getElem?_getD]
    generalize m.startsIndices.set (e / 2) (m.toEndIndex (m.toRightFromStart e)) = l at h1 ⊢
    rcases h3 : l[toOppositeEdge (m.toRightFromStart (toOppositeEdge e)) / 2]? with _ | j
    · exact List.length_pos_iff.mpr hP
    · exact h1 j (List.mem_of_getElem? h3)

theorem Fit.swaps {P : List Point} {l : List Nat} {m : Mesh} (h : Fit P m) : Fit P (l.foldl swapDiagonal m) := by
  induction l generalizing m with
  | nil => exact h
  | cons e l ih => rw [List.foldl_cons]; exact ih (h.swap e)

theorem Fit.restoreLoop {P : List Point} : ∀ {n : Nat} {m : Mesh} {l : List Nat}, Fit P m → Fit P (restoreLoop n m l)
  | 0, _, _, h => h
  | n + 1, m, l, h => by
    rw [Mesh.restoreLoop]
    split_ifs
    · exact h
    · exact Fit.restoreLoop h.swaps

theorem Fit.resolve {P : List Point} {a b : Point} : ∀ {fuel : Nat} {m : Mesh} {q r : List Nat} {s : Mesh × List Nat},
    Fit P m → resolveCrossings a b fuel m q r = .ok s → Fit P s.1
  | _, m, [], r, s, h, hs => by
    rw [resolveCrossings] at hs
    cases hs; exact h
  | 0, m, c :: q, r, s, h, hs => by rw [resolveCrossings] at hs; cases hs
  | fuel + 1, m, c :: q, r, s, h, hs => by
    rw [resolveCrossings] at hs
    dsimp only at hs
    split_ifs at hs
    · exact Fit.resolve (h.swap c) hs
    · exact Fit.resolve (h.swap c) hs
    · exact Fit.resolve (h.swap c) hs
    · exact Fit.resolve h hs

theorem Fit.setConstraint {P : List Point} {a b : Point} {fuel : Nat} {m m' : Mesh} {cs : List Nat} (h : Fit P m)
    (hs : m.setConstraint a b cs fuel = .ok m') : Fit P m' := by
  unfold Mesh.setConstraint at hs
  obtain ⟨r, h1, h2⟩ := bind_ok.mp hs
  cases h2
  exact (h.resolve h1).restoreLoop

theorem Fit.delete {P : List Point} {m : Mesh} (h : Fit P m) (e : Nat) : Fit P (m.deleteEdge e) :=
  ⟨by rw [delete_endpoints]; exact h.1, fun hP i hi => by
    rw [delete_starts] at hi; rw [delete_endpoints]; exact h.2 hP i hi⟩

/-- The stages of `from_polygon` keep the points, the positions and the holes. -/
def Keeps (U T : Cdt) : Prop :=
  (∀ P, Fit P U.mesh → Fit P T.mesh) ∧ T.positions = U.positions ∧ T.triangularHoles = U.triangularHoles ∧
    T.contours = U.contours

theorem Keeps.constrainPosition {U : Cdt} {T : Cdt} {flags : List (List Bool)} {edge fuel : Nat} {p : Point}
    {v : VertexPosition} {r : Cdt × List (List Bool)} (h : Keeps U T)
    (hs : T.constrainPosition flags edge p v fuel = .ok r) : Keeps U r.1 := by
  unfold Cdt.constrainPosition at hs
  dsimp only at hs
  split_ifs at hs
  · obtain ⟨base, _, h2⟩ := bind_ok.mp hs
    obtain ⟨cs, _, h3⟩ := bind_ok.mp h2
    by_cases c : cs = []
    · rw [if_pos c] at h3
      obtain ⟨m', h4, h5⟩ := bind_ok.mp h3
      cases h4; cases h5; exact h
    · rw [if_neg c] at h3
      obtain ⟨m', h4, h5⟩ := bind_ok.mp h3
      cases h5; exact ⟨fun P h6 => (h.1 P h6).setConstraint h4, h.2⟩
  · cases hs; exact h

theorem Keeps.constrainPositions {U : Cdt} {edge fuel : Nat} {p : Point} : ∀ {vs : List VertexPosition} {T : Cdt}
    {flags : List (List Bool)} {r : Cdt × List (List Bool)}, Keeps U T →
    Cdt.constrainPositions edge p fuel T flags vs = .ok r → Keeps U r.1
  | [], T, flags, r, h, hs => by rw [Cdt.constrainPositions] at hs; cases hs; exact h
  | v :: vs, T, flags, r, h, hs => by
    rw [Cdt.constrainPositions] at hs
    obtain ⟨s, h1, h2⟩ := bind_ok.mp hs
    exact Keeps.constrainPositions (h.constrainPosition h1) h2

theorem Keeps.constrainEdges {U : Cdt} {fuel : Nat} : ∀ {es : List Nat} {T T' : Cdt}
    {flags : List (List Bool)}, Keeps U T → Cdt.constrainEdges fuel T flags es = .ok T' → Keeps U T'
  | [], T, T', flags, h, hs => by rw [Cdt.constrainEdges] at hs; cases hs; exact h
  | v :: vs, T, T', flags, h, hs => by
    rw [Cdt.constrainEdges] at hs
    obtain ⟨s, h1, h2⟩ := bind_ok.mp hs
    exact Keeps.constrainEdges (h.constrainPositions h1) h2

theorem Keeps.boundLoop {U : Cdt} : ∀ {fuel : Nat} {es : List Nat} {T T' : Cdt}, Keeps U T →
    Cdt.boundLoop fuel T es = .ok T' → Keeps U T'
  | _, [], T, T', h, hs => by rw [Cdt.boundLoop] at hs; cases hs; exact h
  | 0, _ :: _, T, T', h, hs => by rw [Cdt.boundLoop] at hs; cases hs
  | fuel + 1, e :: es, T, T', h, hs => by
    rw [Cdt.boundLoop] at hs
    dsimp only at hs
    obtain ⟨_, _, h2⟩ := bind_ok.mp hs
    exact Keeps.boundLoop (T := T.deleteEdge e) ⟨fun P h6 => (h.1 P h6).delete e, h.2⟩ h2

theorem Keeps.cutLoop {U : Cdt} : ∀ {es : List Nat} {T T' : Cdt}, Keeps U T →
    Cdt.cutLoop T es = .ok T' → Keeps U T'
  | [], T, T', h, hs => by rw [Cdt.cutLoop] at hs; cases hs; exact h
  | e :: es, T, T', h, hs => by
    rw [Cdt.cutLoop] at hs
    obtain ⟨b, _, h2⟩ := bind_ok.mp hs
    cases b with
    | true => exact Keeps.cutLoop (T := T.deleteEdge e) ⟨fun P h6 => (h.1 P h6).delete e, h.2⟩ h2
    | false => exact Keeps.cutLoop h h2

/-! #### What the stages keep -/

theorem fit_init {polygon : Polygon} {fuel : Nat} {T : Cdt} (h : Cdt.init polygon fuel = .ok T) :
    Fit ((toPolygonVertices polygon.contoursVertices).map Prod.fst) T.mesh ∧
      T.contours = polygon.contoursVertices ∧
      T.positions = (toPolygonVertices polygon.contoursVertices).map Prod.snd ∧
      T.triangularHoles = (polygon.contoursVertices.zipIdx.filter fun c =>
        decide (c.2 ≠ 0) && decide (c.1.length = 3)).map Prod.snd := by
  unfold Cdt.init at h
  dsimp only at h
  rcases h1 : (fromPoints ((toPolygonVertices polygon.contoursVertices).map Prod.fst)).buildDelaunay fuel
    with _ | ⟨m, s⟩
  · rw [h1] at h; cases h
  · rw [h1] at h
    cases h
    obtain ⟨o, hp⟩ := (C38_delaunay_mesh _ fuel h1).1.ok
    exact ⟨⟨hp, fun _ => o.range⟩, rfl, rfl, rfl⟩

/-- All stages of `from_polygon` keep the points, the positions and the holes. -/
theorem keeps_fromPolygon {polygon : Polygon} {fuel : Nat} {T : Cdt} (h : Cdt.fromPolygon polygon fuel = .ok T) :
    ∃ U, Cdt.init polygon fuel = .ok U ∧ Keeps U T := by
  unfold Cdt.fromPolygon at h
  obtain ⟨U, h0, h⟩ := bind_ok.mp h
  obtain ⟨T1, h1, h⟩ := bind_ok.mp h
  obtain ⟨T2, h2, h3⟩ := bind_ok.mp h
  refine ⟨U, h0, ?_⟩
  have k1 : Keeps U T1 := Keeps.constrainEdges ⟨fun _ h => h, rfl, rfl, rfl⟩ h1
  unfold Cdt.bound at h2
  obtain ⟨es, _, h4⟩ := bind_ok.mp h2
  exact (k1.boundLoop h4).cutLoop h3

/-- A vertex of a contour is at a position in the contour. -/
theorem positions_contour {cs : List (List Point)} {k : Nat} {c : List Point} (hk : cs[k]? = some c) {i : Nat}
    (hi : i < (toPolygonVertices cs).length) (hp : ((toPolygonVertices cs).map Prod.fst).getD i ⟨0, 0⟩ ∈ c) :
    ∃ v ∈ ((toPolygonVertices cs).map Prod.snd).getD i [], v.contourIndex = k := by
  have e1 : ((toPolygonVertices cs).map Prod.fst).getD i ⟨0, 0⟩ = (toPolygonVertices cs)[i].1 := by simp [hi]
  have e2 : ((toPolygonVertices cs).map Prod.snd).getD i [] = (toPolygonVertices cs)[i].2 := by simp [hi]
  rw [e1] at hp
  rw [e2]
  obtain ⟨j, hj⟩ := mem_toContourVertices_index hk hp
  refine ⟨_, groupVertices_pos (v := (⟨k, j⟩, (toPolygonVertices cs)[i].1)) (sorted_toContourVertices cs) ?_ _
    (List.getElem_mem hi) rfl, rfl⟩
  rw [List.mem_insertionSort]; exact hj

/-- C56: whenever the construction completes, its points are the vertices of the polygon, each once, in
lexicographic order. -/
theorem C56_points (polygon : Polygon) (fuel : Nat) (hb : polygon.border.vertices ≠ [])
    (hh : ∀ hole ∈ polygon.holes, hole.vertices ≠ []) {T : Cdt} (h : Cdt.fromPolygon polygon fuel = .ok T) :
    T.mesh.endpoints.Pairwise (fun p q => lexLt p q) ∧
    ∀ p, p ∈ T.mesh.endpoints ↔ p ∈ polygon.border.vertices ∨ ∃ hole ∈ polygon.holes, p ∈ hole.vertices := by
  obtain ⟨U, h0, k⟩ := keeps_fromPolygon h
  have f := (k.1 _ (fit_init h0).1).1
  rw [f]
  refine ⟨(toPolygonVertices_sorted _).imp fun h => by rw [Point.lt_iff] at h; exact h, fun p => ?_⟩
  rw [mem_toPolygonVertices]
  · simp [Polygon.contoursVertices]
  · intro c hc
    simp only [Polygon.contoursVertices, List.mem_cons, List.mem_map] at hc
    rcases hc with rfl | ⟨hole, h1, rfl⟩
    · exact hb
    · exact hh hole h1

/-- C56: whenever the construction completes, every triangle it lists is a counterclockwise triangle with
vertices among the vertices of the polygon, starting with its lexicographically least one, and is not one of the
triangular holes. -/
theorem C56_triangles (polygon : Polygon) (fuel : Nat) (hb : polygon.border.vertices ≠ [])
    (hh : ∀ hole ∈ polygon.holes, hole.vertices ≠ []) {T : Cdt} (h : Cdt.fromPolygon polygon fuel = .ok T)
    {a b c : Point} (ht : (a, b, c) ∈ T.trianglesVertices) :
    (∀ p ∈ [a, b, c], p ∈ polygon.border.vertices ∨ ∃ hole ∈ polygon.holes, p ∈ hole.vertices) ∧
    0 < area2 a b c ∧ lexLt a b ∧ lexLt a c ∧
    ∀ hole ∈ polygon.holes, hole.vertices.length = 3 →
      ¬ (a ∈ hole.vertices ∧ b ∈ hole.vertices ∧ c ∈ hole.vertices) := by
  obtain ⟨U, h0, k⟩ := keeps_fromPolygon h
  obtain ⟨f0, _, hpos, hhol⟩ := fit_init h0
  have f := k.1 _ f0
  have hP := C56_points polygon fuel hb hh h
  simp only [Cdt.trianglesVertices, List.mem_map, List.mem_filter] at ht
  obtain ⟨e, ⟨_, ht⟩, heq⟩ := ht
  rw [Prod.mk.injEq, Prod.mk.injEq] at heq
  obtain ⟨rfl, rfl, rfl⟩ := heq
  rw [Bool.and_eq_true] at ht
  obtain ⟨ht, hn⟩ := ht
  simp only [isTriangleEdge, Bool.and_eq_true, decide_eq_true_eq] at ht
  obtain ⟨⟨⟨h1, h2⟩, _⟩, h3⟩ := ht
  have hne : (toPolygonVertices polygon.contoursVertices).map Prod.fst ≠ [] := by
    rw [← f.1]
    intro h4
    obtain ⟨p, hp⟩ := List.exists_mem_of_ne_nil _ hb
    have := (hP.2 p).mpr (Or.inl hp)
    rw [h4] at this; simp at this
  have hin : ∀ x, T.mesh.toStart x ∈ T.mesh.endpoints := fun x => by rw [f.1]; exact f.start hne x
  refine ⟨?_, ?_, ?_, ?_, ?_⟩
  · intro p hp
    rw [← hP.2]
    rcases List.mem_cons.mp hp with rfl | hp
    · exact hin _
    rcases List.mem_cons.mp hp with rfl | hp
    · exact hin (toOppositeEdge e)
    rw [List.mem_singleton] at hp
    rw [hp]; exact hin (toOppositeEdge _)
  · have h5 := orient_ccw.mp h3
    unfold cr at h5; unfold area2; linarith
  · have := Point.ltB_iff.mp h1; rw [Point.lt_iff] at this; exact this
  · have := Point.ltB_iff.mp h2; rw [Point.lt_iff] at this; exact this
  · rintro hole h4 h5 ⟨ha, hb', hc⟩
    obtain ⟨k0, hk0⟩ := List.mem_iff_getElem?.mp h4
    have hk : polygon.contoursVertices[k0 + 1]? = some hole.vertices := by
      simp [Polygon.contoursVertices, hk0]
    have hmem : k0 + 1 ∈ T.triangularHoles := by
      rw [k.2.2.1, hhol]
      simp only [List.mem_map, List.mem_filter]
      refine ⟨(hole.vertices, k0 + 1), ⟨List.mem_zipIdx_iff_getElem?.mpr hk, ?_⟩, rfl⟩
      simp [h5]
    have key : ∀ x, T.mesh.toStart x ∈ hole.vertices →
        ∃ v ∈ T.positionsAt (T.mesh.toStartIndex x), v.contourIndex = k0 + 1 := by
      intro x hx
      have hl := f.startIndex hne x
      unfold Cdt.positionsAt
      rw [k.2.1, hpos]
      refine positions_contour hk (by simpa using hl) ?_
      unfold toStart at hx
      rw [f.1] at hx; exact hx
    obtain ⟨v1, hv1, e1⟩ := key _ ha
    obtain ⟨v2, hv2, e2⟩ := key _ hb'
    obtain ⟨v3, hv3, e3⟩ := key _ hc
    rw [Bool.not_eq_true', Bool.and_eq_false_iff] at hn
    rcases hn with hn | hn
    · rw [Bool.not_eq_false', List.isEmpty_iff] at hn
      rw [hn] at hmem; simp at hmem
    · have : areTriangularHoleVertices (T.positionsAt (T.mesh.toStartIndex e))
          (T.positionsAt (T.mesh.toEndIndex e)) (T.positionsAt (T.mesh.toEndIndex (T.mesh.toLeftFromStart e)))
          T.triangularHoles = true := by
        unfold areTriangularHoleVertices
        rw [List.any_eq_true]
        refine ⟨v1, hv1, ?_⟩
        simp only [Bool.and_eq_true, decide_eq_true_eq, List.any_eq_true]
        refine ⟨⟨⟨by omega, v2, hv2, by omega⟩, v3, hv3, by omega⟩, ?_⟩
        rw [e1]; simpa using hmem
      rw [this] at hn; cases hn

/-! ### Setting a constraint -/

theorem crosses_opp (m : Mesh) (a b : Point) (e : Nat) : m.crosses a b (toOppositeEdge e) = m.crosses a b e := by
  unfold crosses toEnd toStart toEndIndex
  rw [opp_opp]
  unfold relateToSegmentEndpoints
  rw [toSortedPair_comm]

theorem swap_startIndex_other (m : Mesh) {c x : Nat} (h1 : x / 2 ≠ c / 2) (h2 : x / 2 ≠ toOppositeEdge c / 2) :
    (m.swapDiagonal c).toStartIndex x = m.toStartIndex x := by
  rw [swapDiagonal_eq]
  simp only [toStartIndex, swapStarts]
  rw [List.getD_eq_getElem?_getD, List.getElem?_set_ne (Ne.symm h2), List.getElem?_set_ne (Ne.symm h1),
    ← List.getD_eq_getElem?_getD]

theorem swap_crosses_other (m : Mesh) (a b : Point) {c x : Nat} (hc : c % 2 = 0) (hx : x % 2 = 0) (h1 : x ≠ c)
    (h2 : toOppositeEdge x ≠ c) : (m.swapDiagonal c).crosses a b x = m.crosses a b x := by
  have e1 : (m.swapDiagonal c).toStartIndex x = m.toStartIndex x := by
    apply swap_startIndex_other <;> (unfold toOppositeEdge at *; omega)
  have e2 : (m.swapDiagonal c).toEndIndex x = m.toEndIndex x := by
    apply swap_startIndex_other <;> (unfold toOppositeEdge at *; omega)
  unfold crosses toEnd toStart
  rw [e1, e2, swap_endpoints]

theorem resolve_nil {a b : Point} {fuel : Nat} {m : Mesh} {r : List Nat} :
    resolveCrossings a b fuel m [] r = .ok (m, r) := by cases fuel <;> rfl

theorem resolve_crosses {a b : Point} {E : List Nat} (hE : ∀ e ∈ E, e % 2 = 0) {fuel : Nat} {m : Mesh}
    {q r : List Nat} {s : Mesh × List Nat} (hq : ∀ c ∈ q, c % 2 = 0)
    (h : ∀ e ∈ E, m.crosses a b e = true → e ∈ q ∨ toOppositeEdge e ∈ q)
    (hs : resolveCrossings a b fuel m q r = .ok s) : ∀ e ∈ E, s.1.crosses a b e = false := by
  have hnil : ∀ {fuel : Nat} {m : Mesh} {r : List Nat} {s : Mesh × List Nat},
      (∀ e ∈ E, m.crosses a b e = true → e ∈ ([] : List Nat) ∨ toOppositeEdge e ∈ ([] : List Nat)) →
      resolveCrossings a b fuel m [] r = .ok s → ∀ e ∈ E, s.1.crosses a b e = false := by
    intro fuel m r s h hs e he
    rw [resolve_nil] at hs
    cases hs
    rw [← Bool.not_eq_true]
    intro hc
    rcases h e he hc with h | h <;> simp at h
  induction fuel generalizing m q r with
  | zero =>
    rcases q with _ | ⟨c, q⟩
    · exact hnil h hs
    · rw [resolveCrossings] at hs; cases hs
  | succ fuel ih =>
    rcases q with _ | ⟨c, q⟩
    · exact hnil h hs
    have hc := hq c (by simp)
    have hq1 : ∀ x ∈ q ++ [c], x % 2 = 0 := by
      intro x hx
      rw [List.mem_append, List.mem_singleton] at hx
      rcases hx with hx | rfl
      · exact hq x (List.mem_cons_of_mem _ hx)
      · exact hc
    have hq2 : ∀ x ∈ q, x % 2 = 0 := fun x hx => hq x (List.mem_cons_of_mem _ hx)
    have hmem : ∀ x, x ∈ c :: q → x ∈ q ++ [c] := by
      intro x hx; simp only [List.mem_cons, List.mem_append, List.not_mem_nil, or_false] at hx ⊢; tauto
    have hsw : ∀ e ∈ E, (m.swapDiagonal c).crosses a b e = true → (e = c ∨ toOppositeEdge e = c) ∨
        e ∈ q ∨ toOppositeEdge e ∈ q := by
      intro e he h1
      by_cases h2 : e = c ∨ toOppositeEdge e = c
      · exact Or.inl h2
      · rw [not_or] at h2
        rw [swap_crosses_other m a b hc (hE e he) h2.1 h2.2] at h1
        have := h e he h1
        simp only [List.mem_cons] at this
        tauto
    have hself : ∀ e, (e = c ∨ toOppositeEdge e = c) → (m.swapDiagonal c).crosses a b e = true →
        (m.swapDiagonal c).crosses a b c = true := by
      rintro e (h1 | h1) h2
      · rw [h1] at h2; exact h2
      · have := crosses_opp (m.swapDiagonal c) a b e
        rw [h1] at this; rw [this]; exact h2
    rw [resolveCrossings] at hs
    dsimp only at hs
    split_ifs at hs with h1 h2 h3
    · refine ih hq1 ?_ hs
      intro e he h4
      rcases hsw e he h4 with h5 | h5
      · rcases h5 with rfl | rfl <;> simp
      · simp only [List.mem_append]; tauto
    · refine ih hq2 ?_ hs
      intro e he h4
      rcases hsw e he h4 with h5 | h5
      · exact absurd (of_decide_eq_true (hself e h5 h4)) h2
      · exact h5
    · refine ih hq2 ?_ hs
      intro e he h4
      rcases hsw e he h4 with h5 | h5
      · exact absurd (of_decide_eq_true (hself e h5 h4)) h2
      · exact h5
    · refine ih hq1 ?_ hs
      intro e he h4
      rcases h e he h4 with h5 | h5
      · exact Or.inl (hmem _ h5)
      · exact Or.inr (hmem _ h5)

theorem crossingsLoop_edges {m : Mesh} (o : Ok m) {a b : Point} : ∀ {fuel c : Nat} {r s : List Nat}, IsEdge m c →
    (∀ x ∈ r, IsEdge m x) → m.crossingsLoop a b fuel c r = .ok s → ∀ x ∈ s, IsEdge m x
  | 0, c, r, s, _, _, h => by rw [crossingsLoop] at h; cases h
  | fuel + 1, c, r, s, hc, hr, h => by
    rw [crossingsLoop] at h
    split_ifs at h with h1
    · cases h; exact hr
    · obtain ⟨_, _, h2⟩ := bind_ok.mp h
      refine crossingsLoop_edges o ?_ ?_ h2
      · split_ifs
        · exact (hc.rightEnd o).opp o
        · exact hc.right o
      · intro x hx
        rw [List.mem_append, List.mem_singleton] at hx
        rcases hx with hx | rfl
        · exact hr x hx
        · exact hc

theorem assert_ok {c : Bool} {u : Unit} (h : assert c = .ok u) : c = true := by
  unfold assert at h
  split_ifs at h with h1
  exact h1

/-- C56: when the edges crossing a constraint are detected and then resolved, no edge of the mesh crosses the
constraint (in its interior, without being collinear) any more. -/
theorem C56_no_crossings_left {points : List Point} {m m' : Mesh} (hm : ReachableMesh points m) {base : Nat}
    (hb : IsEdge m base) {a b : Point} (hab : a ≠ b) {fuel fuel' : Nat} {crossings new : List Nat}
    (hd : m.detectCrossings base a b fuel = .ok crossings)
    (hr : resolveCrossings a b fuel' m crossings [] = .ok (m', new)) :
    ∀ e ∈ m.toUniqueEdges, m'.toStart e ≠ m'.toEnd e → ¬ SegRel .cross (m'.toStart e) (m'.toEnd e) a b := by
  have o := hm.ok.1
  unfold detectCrossings at hd
  obtain ⟨cs, h1, hd⟩ := bind_ok.mp hd
  obtain ⟨_, _, hd⟩ := bind_ok.mp hd
  obtain ⟨_, h3, hd⟩ := bind_ok.mp hd
  cases hd
  have hcs := crossingsLoop_edges o (hb.leftEnd o) (by simp) h1
  have h4 := assert_ok h3
  rw [List.all_eq_true] at h4
  intro e he hne hx
  have := resolve_crosses (E := m.toUniqueEdges) (a := a) (b := b) (fun e he => by
      unfold toUniqueEdges at he
      rw [List.mem_filter, List.mem_map] at he
      obtain ⟨⟨i, _, rfl⟩, _⟩ := he
      omega) (fun c hc => (hcs c hc).2) (fun e he h5 => by
      have := h4 e (List.mem_filter.mpr ⟨he, h5⟩)
      simpa using this) hr e he
  unfold crosses at this
  rw [(relate_iff hne hab).mpr hx] at this
  simp at this

end Rene
