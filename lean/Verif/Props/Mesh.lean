import Verif.Lemmas.Delaunay
import Verif.Props.Helpers

/-! # C38: the quad-edge mesh of triangulations -/

namespace Rene
open Spec Mesh

/-! ### The edge algebra -/

/-- C38: rotation has order four, its square is the opposite edge; neither has a fixed point; an edge, its
opposite and the two dual edges share a block of four; opposite edges are of the same kind, rotated ones are
not. -/
theorem C38_edge_algebra (e : Nat) :
    toRotatedEdge (toRotatedEdge e) = toOppositeEdge e ∧
    toOppositeEdge (toOppositeEdge e) = e ∧
    toRotatedEdge (toRotatedEdge (toRotatedEdge (toRotatedEdge e))) = e ∧
    toRotatedEdge e ≠ e ∧ toOppositeEdge e ≠ e ∧
    toRotatedEdge e / 4 = e / 4 ∧ toOppositeEdge e / 4 = e / 4 ∧
    toOppositeEdge e % 2 = e % 2 ∧ toRotatedEdge e % 2 ≠ e % 2 := by
  unfold toRotatedEdge toOppositeEdge
  omega

/-! ### Reachable meshes -/

theorem Mesh.ReachableMesh.ok {points : List Point} {m : Mesh} (h : ReachableMesh points m) :
    Ok m ∧ m.endpoints = points := by
  induction h with
  | new => exact ⟨ok_fromPoints points, rfl⟩
  | create _ hi hj ih => exact ⟨ih.1.create (by rw [ih.2]; exact hi) (by rw [ih.2]; exact hj), ih.2⟩
  | splice _ ha hb hs ih => exact ⟨ih.1.splice ha.1 hb.1 ha.2 hb.2 hs, by rw [splice_endpoints]; exact ih.2⟩
  | connect _ ha hb ih =>
    exact ⟨ih.1.connect ha.1 hb.1 ha.2 hb.2, by rw [connect_endpoints]; exact ih.2⟩
  | delete _ he ih => exact ⟨ih.1.delete he.1 he.2, by rw [delete_endpoints]; exact ih.2⟩
  | swap _ he h1 h2 h3 ih =>
    exact ⟨ih.1.swap ⟨he.1, he.2, h1, h2, h3⟩, by rw [swap_endpoints]; exact ih.2⟩

/-- C38: in every mesh reached by any sequence of operations the next edge around the start is a permutation
of the edges, inverted by the previous edge around the start (computed through the dual edges); an edge is
alone at its start iff its predecessor is itself (the `assert` of `is_deleted_edge`); the edges in a ring around
a vertex start at the same vertex, which is one of the points; the next edge of the left face starts where the
edge ends. -/
theorem C38_reachable_mesh {points : List Point} {m : Mesh} (h : ReachableMesh points m) :
    (∀ e < m.leftFromStart.length,
      m.toLeftFromStart e < m.leftFromStart.length ∧ m.toRightFromStart e < m.leftFromStart.length ∧
      m.toRightFromStart (m.toLeftFromStart e) = e ∧ m.toLeftFromStart (m.toRightFromStart e) = e ∧
      (m.toLeftFromStart e = e ↔ m.toRightFromStart e = e)) ∧
    (∀ e, IsEdge m e → IsEdge m (m.toLeftFromStart e) ∧ m.toStartIndex (m.toLeftFromStart e) = m.toStartIndex e ∧
      m.toStartIndex e < points.length ∧ m.toStart e ∈ points ∧ m.toEnd e ∈ points ∧
      IsEdge m (m.toLeftFromEnd e) ∧ m.toStartIndex (m.toLeftFromEnd e) = m.toEndIndex e ∧
      IsEdge m (m.toRightFromEnd e) ∧ m.toStartIndex (m.toRightFromEnd e) = m.toEndIndex e) := by
  obtain ⟨o, hp⟩ := h.ok
  have q := o.quad
  have hin : ∀ e, IsEdge m e → m.toStart e ∈ points := by
    intro e he
    have := o.range.start q he.1
    unfold toStart
    rw [List.getD_eq_getElem?_getD, List.getElem?_eq_getElem this]
    rw [← hp]; exact List.getElem_mem this
  refine ⟨fun e he => ⟨q.lt e he, q.right_lt he, q.right_left he, q.left_right he, ?_⟩, fun e he => ?_⟩
  · constructor
    · intro h; conv_lhs => rw [← h]
      exact q.right_left he
    · intro h; conv_lhs => rw [← h]
      exact q.left_right he
  · refine ⟨he.left o, o.around e he.1 he.2, by rw [← hp]; exact o.range.start q he.1, hin e he,
      hin _ (he.opp o), he.leftEnd o, q.start_leftFromEnd o.around he.1 he.2, he.rightEnd o, ?_⟩
    exact o.around _ (he.opp o).1 (he.opp o).2

/-- C38: splicing exchanges the successors of two edges (so it joins two rings or splits one) ... -/
theorem C38_splice {points : List Point} {m : Mesh} (h : ReachableMesh points m) {a b x : Nat}
    (ha : IsEdge m a) (hb : IsEdge m b) (hx : x % 2 = 0) :
    (m.spliceEdges a b).toLeftFromStart x =
      m.toLeftFromStart (if x = a then b else if x = b then a else x) := by
  rw [h.ok.1.quad.splice_even ha.1 hb.1 ha.2 hb.2 hx]
  split_ifs <;> rfl

/-- C38: ... and is an involution on the whole structure, dual edges included. -/
theorem C38_splice_involution {points : List Point} {m : Mesh} (h : ReachableMesh points m) {a b : Nat}
    (ha : IsEdge m a) (hb : IsEdge m b) : (m.spliceEdges a b).spliceEdges a b = m := by
  have q := h.ok.1.quad
  have hp : a % 2 = b % 2 := by rw [ha.2, hb.2]
  have q1 := q.splice ha.1 hb.1 hp
  have hlen : ((m.spliceEdges a b).spliceEdges a b).leftFromStart.length = m.leftFromStart.length := by
    rw [splice_length, splice_length]
  have hl : ((m.spliceEdges a b).spliceEdges a b).leftFromStart = m.leftFromStart := by
    apply List.ext_getElem hlen
    intro x hx hx2
    have k : ((m.spliceEdges a b).spliceEdges a b).toLeftFromStart x = m.toLeftFromStart x := by
      rw [q1.splice_left (by rw [splice_length]; exact ha.1) (by rw [splice_length]; exact hb.1) hp]
      have v := q.splice_left ha.1 hb.1 hp
      have va := v a; have vb := v b
      rw [if_pos rfl] at va
      have vb' : (m.spliceEdges a b).toLeftFromStart b = m.toLeftFromStart a := by
        rw [vb]; by_cases e : b = a
        · rw [if_pos e, e]
        · rw [if_neg e, if_pos rfl]
      rw [va, vb']
      have p1 := rot_par (m.toLeftFromStart a); have p2 := q.par a ha.1
      have p3 := rot_par (m.toLeftFromStart b); have p4 := q.par b hb.1
      set α := toRotatedEdge (m.toLeftFromStart a)
      set β := toRotatedEdge (m.toLeftFromStart b)
      have n1 : α ≠ a := by omega
      have n2 : α ≠ b := by omega
      have n3 : β ≠ a := by omega
      have n4 : β ≠ b := by omega
      have vα := v α; have vβ := v β
      rw [if_neg n1, if_neg n2, if_pos rfl] at vα
      have vβ' : (m.spliceEdges a b).toLeftFromStart β = m.toLeftFromStart α := by
        rw [vβ, if_neg n3, if_neg n4]
        by_cases e : β = α
        · rw [if_pos e, e]
        · rw [if_neg e, if_pos rfl]
      rw [vα, vβ', v x]
      grind
    simp only [toLeftFromStart, List.getD_eq_getElem?_getD] at k
    rw [List.getElem?_eq_getElem hx, List.getElem?_eq_getElem hx2] at k
    simpa using k
  have : (m.spliceEdges a b).spliceEdges a b =
      { m with leftFromStart := ((m.spliceEdges a b).spliceEdges a b).leftFromStart } := rfl
  rw [this, hl]

/-- C38: a created edge joins the given vertices, is alone at both ends and leaves all other edges as they
are. -/
theorem C38_create {points : List Point} {m : Mesh} (h : ReachableMesh points m) (i j : Nat) :
    let r := m.createEdge i j
    IsEdge r.1 r.2 ∧ ¬ IsEdge m r.2 ∧ r.1.toStartIndex r.2 = i ∧ r.1.toEndIndex r.2 = j ∧
    r.1.toLeftFromStart r.2 = r.2 ∧ r.1.toLeftFromStart (toOppositeEdge r.2) = toOppositeEdge r.2 ∧
    r.1.toLeftFromEnd r.2 = toOppositeEdge r.2 ∧
    ∀ e, IsEdge m e → r.1.toLeftFromStart e = m.toLeftFromStart e ∧ r.1.toStartIndex e = m.toStartIndex e := by
  have o := h.ok.1
  have q := o.quad
  have h4 := q.four
  have hl := create_length m i j
  have q1 := q.create i j
  have e1 : (m.createEdge i j).2 = m.leftFromStart.length := rfl
  have k2 : (m.createEdge i j).1.toLeftFromStart (m.leftFromStart.length + 2) = m.leftFromStart.length + 2 := by
    rw [create_left m i j _ (by omega), if_neg (by omega), if_neg (by omega), if_neg (by omega), if_pos rfl]
  simp only [e1]
  refine ⟨⟨by omega, by omega⟩, fun hh => absurd hh.1 (lt_irrefl _), create_start_new q i j,
    create_end_new q i j, ?_, ?_, ?_, fun e he => ⟨?_, create_start_old q i j he.1⟩⟩
  · rw [create_left m i j _ (by omega), if_neg (by omega), if_pos rfl]
  · rw [opp_new q]; exact k2
  · rw [leftFromEnd_eq, opp_new q]
    exact q1.right_eq_of_left (by omega) k2
  · have := he.1
    rw [create_left m i j _ (by omega), if_pos he.1]

/-- C38: connecting two edges creates an edge from the end of the first to the start of the second, such that
first, new edge and second follow each other around the left face; all other edges keep their vertices. -/
theorem C38_connect {points : List Point} {m : Mesh} (h : ReachableMesh points m) {a b : Nat}
    (ha : IsEdge m a) (hb : IsEdge m b) :
    let r := m.connectEdges a b
    IsEdge r.1 r.2 ∧ ¬ IsEdge m r.2 ∧ r.1.toStartIndex r.2 = m.toEndIndex a ∧
    r.1.toEndIndex r.2 = m.toStartIndex b ∧ r.1.toLeftFromEnd a = r.2 ∧ r.1.toLeftFromEnd r.2 = b ∧
    (∀ e, IsEdge m e → r.1.toStartIndex e = m.toStartIndex e) ∧
    (∀ e, IsEdge m e → e ≠ b → e ≠ m.toLeftFromEnd a → r.1.toLeftFromStart e = m.toLeftFromStart e) := by
  have o := h.ok.1
  have q := o.quad
  have h4 := q.four
  have o1 : Ok (m.connectEdges a b).1 := o.connect ha.1 hb.1 ha.2 hb.2
  have hl := connect_length m a b
  have v := fun (x : Nat) hx => o.connect_left ha.1 hb.1 ha.2 hb.2 (x := x) hx
  have la := ha.1; have lb := hb.1
  simp only [connect_snd]
  refine ⟨⟨by omega, by omega⟩, fun hh => absurd hh.1 (lt_irrefl _), ?_, ?_, ?_, ?_, ?_, ?_⟩
  · exact create_start_new q _ _
  · exact create_end_new q _ _
  · rw [leftFromEnd_eq]
    refine o1.quad.right_eq_of_left (by omega) ?_
    rw [v _ (by omega), if_neg (by omega), if_neg (by omega), if_pos rfl]
  · rw [leftFromEnd_eq, opp_new q]
    refine o1.quad.right_eq_of_left (by omega) ?_
    rw [v _ hb.2, if_pos rfl]
  · intro e he
    exact create_start_old q _ _ he.1
  · intro e he h1 h2
    have := he.1
    rw [v e he.2, if_neg h1, if_neg (by omega), if_neg (by omega), if_neg h2, create_left m 0 0 _ (by omega),
      if_pos he.1]

/-- C38: a deleted edge is reported as deleted (in both directions), and the rings of its two ends close up
over it; all other edges keep their vertices and successors. -/
theorem C38_delete {points : List Point} {m : Mesh} (h : ReachableMesh points m) {e : Nat}
    (he : IsEdge m e) (hl : m.toStartIndex e ≠ m.toEndIndex e) :
    (m.deleteEdge e).isDeletedEdge e = true ∧ (m.deleteEdge e).isDeletedEdge (toOppositeEdge e) = true ∧
    ∀ x, IsEdge m x → x ≠ e → x ≠ toOppositeEdge e →
      (m.deleteEdge e).toStartIndex x = m.toStartIndex x ∧
      (m.deleteEdge e).toLeftFromStart x =
        if m.toLeftFromStart x = e then m.toLeftFromStart e
        else if m.toLeftFromStart x = toOppositeEdge e then m.toLeftFromStart (toOppositeEdge e)
        else m.toLeftFromStart x := by
  have o := h.ok.1
  have v := fun (x : Nat) hx ex => o.delete_left he.1 he.2 hl (x := x) hx ex
  refine ⟨?_, ?_, fun x hx h1 h2 => ⟨rfl, ?_⟩⟩
  · rw [isDeletedEdge, v e he.1 he.2, if_pos (Or.inl rfl)]; simp
  · rw [isDeletedEdge, v _ (he.opp o).1 (he.opp o).2, if_pos (Or.inr rfl)]; simp
  · rw [v x hx.1 hx.2, if_neg (not_or.mpr ⟨h1, h2⟩)]

/-- C38: swapping a diagonal moves it to the third vertices of the two triangles at its sides (both `assert`s
of `swap_diagonal` hold), puts it behind those sides in their left faces, and all other edges keep their
vertices. -/
theorem C38_swap {points : List Point} {m : Mesh} (h : ReachableMesh points m) {e : Nat}
    (he : IsEdge m e) (hl : m.toStartIndex e ≠ m.toEndIndex e) (h1 : m.toLeftFromStart e ≠ e)
    (h2 : m.toLeftFromStart (toOppositeEdge e) ≠ toOppositeEdge e) :
    let side := m.toRightFromStart e
    let oppositeSide := m.toRightFromStart (toOppositeEdge e)
    let s := m.swapDiagonal e
    s.toStartIndex e = m.toEndIndex side ∧ s.toEndIndex e = m.toEndIndex oppositeSide ∧
    s.toStart e = s.toEnd side ∧ s.toEnd e = s.toEnd oppositeSide ∧
    s.toLeftFromEnd side = e ∧ s.toLeftFromEnd oppositeSide = toOppositeEdge e ∧
    ∀ x, IsEdge m x → x ≠ e → x ≠ toOppositeEdge e → s.toStartIndex x = m.toStartIndex x := by
  have o := h.ok.1
  have q := o.quad
  have w : Swappable m e := ⟨he.1, he.2, hl, h1, h2⟩
  have st := fun (x : Nat) ex => o.swap_start w (x := x) ex
  have o1 := o.swap w
  obtain ⟨q4, d, d', ld, ld', pd, pd', d1, d2, d3, d4, d5, vd, vd', v4⟩ := o.swapped_left w
  have lo := opp_lt q.four he.1
  have po : toOppositeEdge e % 2 = 0 := by rw [opp_par]; exact he.2
  have n1 := opp_ne e
  have s1 := q.right_ne he.1 h1
  have s2 := q.right_ne lo h2
  have ps : toOppositeEdge (m.toRightFromStart e) % 2 = 0 := by
    rw [opp_par, q.right_par he.1]; exact he.2
  have pso : toOppositeEdge (m.toRightFromStart (toOppositeEdge e)) % 2 = 0 := by
    rw [opp_par, q.right_par lo]; exact po
  have ss : m.toStartIndex (m.toRightFromStart e) = m.toStartIndex e := q.start_right o.around he.1 he.2
  have sso : m.toStartIndex (m.toRightFromStart (toOppositeEdge e)) = m.toStartIndex (toOppositeEdge e) :=
    q.start_right o.around lo po
  have oinj : ∀ {x y}, toOppositeEdge x = toOppositeEdge y → x = y := by
    intro x y h; rw [← opp_opp x, h, opp_opp]
  have e1 : toOppositeEdge (m.toRightFromStart e) ≠ e := by
    intro h; rw [← opp_opp (m.toRightFromStart e), h] at ss; exact hl ss.symm
  have e2 : toOppositeEdge (m.toRightFromStart e) ≠ toOppositeEdge e := fun h => s1 (oinj h)
  have e3 : toOppositeEdge (m.toRightFromStart (toOppositeEdge e)) ≠ e := by
    intro h; apply s2; rw [← opp_opp (m.toRightFromStart (toOppositeEdge e)), h]
  have e4 : toOppositeEdge (m.toRightFromStart (toOppositeEdge e)) ≠ toOppositeEdge e := by
    intro h; rw [oinj h] at sso; exact hl sso
  have a1 : (m.swapDiagonal e).toStartIndex e = m.toEndIndex (m.toRightFromStart e) := by
    rw [st e he.2, if_pos rfl]
  have a2 : (m.swapDiagonal e).toEndIndex e = m.toEndIndex (m.toRightFromStart (toOppositeEdge e)) := by
    unfold toEndIndex; rw [st _ po, if_neg n1, if_pos rfl]; rfl
  refine ⟨a1, a2, ?_, ?_, ?_, ?_, ?_⟩
  · unfold toStart toEnd; rw [a1]; unfold toEndIndex; rw [st _ ps, if_neg e1, if_neg e2]
  · unfold toEnd; rw [a2]; unfold toEndIndex; rw [st _ pso, if_neg e3, if_neg e4]
  · rw [leftFromEnd_eq]
    refine o1.quad.right_eq_of_left (by rw [swap_length]; exact he.1) ?_
    rw [swap_left, v4 e he.2, if_pos rfl]
  · rw [leftFromEnd_eq]
    refine o1.quad.right_eq_of_left (by rw [swap_length]; exact lo) ?_
    rw [swap_left, v4 _ po, if_neg n1, if_pos rfl]
  · intro x hx h1 h2
    rw [st x hx.2, if_neg h1, if_neg h2]

/-! ### The walk along the boundary -/

/-- C38: the walk of `to_boundary_points` (and of `to_unique_boundary_edges`) from any edge of a mesh
terminates, after at most as many steps as there are edges, with pairwise different edges, each starting where
the preceding one ends, cyclically. -/
theorem C38_boundary_walk {points : List Point} {m : Mesh} (h : ReachableMesh points m) {s fuel : Nat}
    (hs : IsEdge m s) (hf : m.leftFromStart.length ≤ fuel) :
    ∃ edges, m.boundaryLoop s fuel s = some edges ∧ edges ≠ [] ∧ edges.head? = some s ∧ edges.Nodup ∧
      (∀ e ∈ edges, IsEdge m e) ∧
      (edges.IsChain fun e f => m.toStartIndex f = m.toEndIndex e) ∧
      ∀ e, edges.getLast? = some e → m.toStartIndex s = m.toEndIndex e := by
  classical
  have o := h.ok.1
  have hex := exists_period o hs.1
  let P := fun k => 1 ≤ k ∧ m.toRightFromEnd^[k] s = s
  have hP : ∃ k, P k := by obtain ⟨k, a, _, b⟩ := hex; exact ⟨k, a, b⟩
  obtain ⟨k1, k2⟩ : P (Nat.find hP) := Nat.find_spec hP
  have kl : Nat.find hP ≤ m.leftFromStart.length := by
    obtain ⟨k, a, b, c⟩ := hex
    exact (Nat.find_min' hP ⟨a, c⟩).trans b
  have kmin : ∀ j, 1 ≤ j → j < Nat.find hP → m.toRightFromEnd^[j] s ≠ s := fun j h1 h2 h3 =>
    Nat.find_min hP h2 ⟨h1, h3⟩
  set k := Nat.find hP
  obtain ⟨n, hn⟩ : ∃ n, k = n + 1 := ⟨k - 1, by omega⟩
  have hloop := boundaryLoop_eq k2 kmin n 0 fuel (by omega) (by omega)
  have hedge : ∀ i, IsEdge m (m.toRightFromEnd^[i] s) := by
    intro i
    induction i with
    | zero => exact hs
    | succ i ih => rw [Function.iterate_succ_apply']; exact ih.rightEnd o
  have hnext : ∀ e, IsEdge m e → m.toStartIndex (m.toRightFromEnd e) = m.toEndIndex e := fun e he =>
    o.around _ (he.opp o).1 (he.opp o).2
  have hinj : ∀ i j, i < j → j < k → m.toRightFromEnd^[i] s ≠ m.toRightFromEnd^[j] s := by
    intro i
    induction i with
    | zero => intro j h1 h2 h3; exact kmin j h1 h2 h3.symm
    | succ i ih =>
      intro j h1 h2 h3
      obtain ⟨j', rfl⟩ : ∃ j', j = j' + 1 := ⟨j - 1, by omega⟩
      rw [Function.iterate_succ_apply', Function.iterate_succ_apply'] at h3
      exact ih j' (by omega) (by omega) (rightFromEnd_inj o (hedge i).1 (hedge j').1 h3)
  refine ⟨_, hloop, by simp, by simp [List.range'_succ], ?_, ?_, ?_, ?_⟩
  · rw [List.nodup_iff_pairwise_ne, List.pairwise_map]
    refine (List.pairwise_lt_range' (s := 0) (n := n + 1)).imp_of_mem ?_
    intro i j hi hj hij
    simp only [List.mem_range'] at hj
    obtain ⟨j', hj', rfl⟩ := hj
    exact hinj i _ hij (by omega)
  · intro e he
    simp only [List.mem_map] at he
    obtain ⟨i, _, rfl⟩ := he
    exact hedge i
  · rw [List.isChain_map]
    refine (List.isChain_range' (s := 0) (n := n + 1) (step := 1)).imp ?_
    intro i j hij
    subst hij
    rw [Function.iterate_succ_apply']
    exact hnext _ (hedge i)
  · intro e he
    simp only [List.getLast?_map, List.getLast?_range'] at he
    simp at he
    subst he
    rw [← hnext _ (hedge n), ← Function.iterate_succ_apply' m.toRightFromEnd n s, Nat.succ_eq_add_one, ← hn, k2]

/-! ### The triangulation algorithm -/

/-- Edges which are not alone at their start. -/
def Mesh.live (m : Mesh) : Finset Nat :=
  (Finset.range m.leftFromStart.length).filter fun e => e % 2 = 0 ∧ m.toLeftFromStart e ≠ e

theorem Mesh.live_delete {m : Mesh} {e : Nat} (o : Ok m) (he : IsEdge m e) (hl : m.toLeftFromStart e ≠ e) :
    (m.deleteEdge e).live.card < m.live.card := by
  have q := o.quad
  have o1 := o.isolate he.1 he.2
  have lo := opp_lt q.four he.1
  have po : toOppositeEdge e % 2 = 0 := by rw [opp_par]; exact he.2
  have v1 := fun (x : Nat) hx ex => q.isolate he.1 he.2 (x := x) hx ex
  have v2 := fun (x : Nat) hx ex => o1.quad.isolate (e := toOppositeEdge e) (by rw [splice_length]; exact lo) po
    (x := x) (by rw [splice_length]; exact hx) ex
  have ve : (m.deleteEdge e).toLeftFromStart e = e := by
    show ((m.spliceEdges e (m.toRightFromStart e)).spliceEdges (toOppositeEdge e) _).toLeftFromStart e = e
    rw [v2 e he.1 he.2, if_neg (Ne.symm (opp_ne e)), v1 e he.1 he.2, if_pos rfl, if_neg (Ne.symm (opp_ne e))]
  have keep : ∀ x, IsEdge m x → m.toLeftFromStart x = x → (m.deleteEdge e).toLeftFromStart x = x := by
    intro x hx h
    show ((m.spliceEdges e (m.toRightFromStart e)).spliceEdges (toOppositeEdge e) _).toLeftFromStart x = x
    have h1 : (m.spliceEdges e (m.toRightFromStart e)).toLeftFromStart x = x := by
      rw [v1 x hx.1 hx.2]
      by_cases c : x = e
      · rw [if_pos c, c]
      · rw [if_neg c, if_neg (by rw [h]; exact c), h]
    rw [v2 x hx.1 hx.2]
    by_cases c : x = toOppositeEdge e
    · rw [if_pos c, c]
    · rw [if_neg c, if_neg (by rw [h1]; exact c), h1]
  apply Finset.card_lt_card
  rw [Finset.ssubset_iff_of_subset]
  · refine ⟨e, ?_, ?_⟩
    · simp only [live, Finset.mem_filter, Finset.mem_range]; exact ⟨he.1, he.2, hl⟩
    · simp only [live, Finset.mem_filter, Finset.mem_range, not_and, not_not]; exact fun _ _ => ve
  · intro x hx
    simp only [live, Finset.mem_filter, Finset.mem_range, delete_length] at hx ⊢
    exact ⟨hx.1, hx.2.1, fun h => hx.2.2 (keep x ⟨hx.1, hx.2.1⟩ h)⟩

theorem locatePointInCircle_self (p a b : Point) : locatePointInCircle p a b p = .boundary := by
  unfold locatePointInCircle
  simp [toSign]

theorem Mesh.live_card_le (m : Mesh) : m.live.card ≤ m.leftFromStart.length := by
  refine (Finset.card_filter_le _ _).trans ?_
  simp

/-- C38: the loops of `find_left_candidate` and `find_right_candidate`, which delete the edges that fail the
in-circle test, terminate for every mesh, base edge and candidate: the number of steps is bounded by the number
of edges. -/
theorem C38_candidate_loops_terminate {points : List Point} {m : Mesh} (h : ReachableMesh points m)
    {base e fuel : Nat} (he : IsEdge m e) (hf : m.leftFromStart.length < fuel) :
    (leftCandidateLoop base fuel m e).isSome ∧ (rightCandidateLoop base fuel m e).isSome := by
  have o := h.ok.1
  have hc : m.live.card < fuel := m.live_card_le.trans_lt hf
  clear h hf
  constructor
  · induction fuel generalizing m e with
    | zero => omega
    | succ fuel ih =>
      rw [leftCandidateLoop]
      split
      · rename_i hcond
        have hl : m.toLeftFromStart e ≠ e := by
          intro h; rw [h, locatePointInCircle_self] at hcond; simp at hcond
        have k := Evolved.delete o he
        exact ih (k.edge (he.left o)) k.ok (by have := live_delete o he hl; omega)
      · rfl
  · induction fuel generalizing m e with
    | zero => omega
    | succ fuel ih =>
      rw [rightCandidateLoop]
      split
      · rename_i hcond
        have hl : m.toLeftFromStart e ≠ e := by
          intro h
          have h2 : m.toRightFromStart e = e := by
            conv_lhs => rw [← h]
            exact o.quad.right_left he.1
          rw [h2, locatePointInCircle_self] at hcond; simp at hcond
        have k := Evolved.delete o he
        exact ih (k.edge (he.right o)) k.ok (by have := live_delete o he hl; omega)
      · rfl

/-- C38: whenever the divide and conquer construction completes, for any points, it leaves a well-formed mesh
on these points, reached by the operations above; for at least two points the `assert` that
merging ends with one part holds, and the two sides are edges of the mesh. -/
theorem C38_delaunay_mesh (points : List Point) (fuel : Nat) {r : Mesh × Option (Nat × Nat)}
    (h : (fromPoints points).buildDelaunay fuel = some r) :
    ReachableMesh points r.1 ∧
    (points.length < 2 → r.2 = none) ∧
    (2 ≤ points.length → ∃ s, r.2 = some s ∧ IsEdge r.1 s.1 ∧ IsEdge r.1 s.2) := by
  unfold buildDelaunay at h
  have o0 := ok_fromPoints points
  have e0 : (fromPoints points).endpoints = points := rfl
  simp only [e0] at h
  split_ifs at h with hlt
  · simp only [Option.some.injEq] at h
    subst h
    exact ⟨.new, fun _ => rfl, fun h => by omega⟩
  · have hc := C42_base_cases points.length (by omega)
    have hs := createSegments_ok (count := (toBaseCases points.length).1) (index := 0) o0 (by rw [e0]; omega)
    set cs := toBaseCases points.length
    set S := createSegments cs.1 0 (fromPoints points)
    have ht := createTriangles_ok (offset := 2 * cs.1) (count := cs.2) (index := 0) hs.1.ok
      (by rw [hs.1.points, e0]; omega)
    set T := createTriangles (2 * cs.1) cs.2 0 S.1
    simp only [Option.map_eq_some_iff] at h
    obtain ⟨x, hx, rfl⟩ := h
    have hsides : ∀ s ∈ S.2 ++ T.2, IsSides T.1 s := by
      intro s hm
      rcases List.mem_append.mp hm with hm | hm
      · exact ht.1.sides (hs.2.1 s hm)
      · exact ht.2.1 s hm
    obtain ⟨k, i, j⟩ := mergeRounds_ok ht.1.ok hsides hx
    have kk := (hs.1.trans ht.1).trans k
    refine ⟨kk.reach points .new, fun h => by omega, fun _ => ?_⟩
    have hlen : (S.2 ++ T.2).length = cs.1 + cs.2 := by rw [List.length_append, hs.2.2, ht.2.2]
    have h1 := j (by rw [hlen]; omega) ((C42_ceil_log2 _ (by rw [hlen]; omega) _).mp le_rfl)
    obtain ⟨s, hs1⟩ := List.length_eq_one_iff.mp h1
    refine ⟨s, by simp only [hs1], i s (by rw [hs1]; simp)⟩

/-- C38: every triangle listed by `triangles_vertices` of a mesh is a counterclockwise triangle
with vertices among the points, starting with its lexicographically least one. -/
theorem C38_triangles {points : List Point} {m : Mesh} (hm : ReachableMesh points m) {a b c : Point}
    (h : (a, b, c) ∈ m.trianglesVertices) :
    a ∈ points ∧ b ∈ points ∧ c ∈ points ∧ 0 < area2 a b c ∧ lexLt a b ∧ lexLt a c := by
  obtain ⟨o, hp⟩ := hm.ok
  rw [← hp]
  have hin : ∀ e, IsEdge m e → m.toStart e ∈ m.endpoints := by
    intro e he
    have := o.range.start o.quad he.1
    unfold toStart
    rw [List.getD_eq_getElem?_getD, List.getElem?_eq_getElem this]
    exact List.getElem_mem this
  simp only [trianglesVertices, List.mem_map, List.mem_filter, toEdges, List.mem_range] at h
  obtain ⟨e, ⟨⟨⟨i, hi, rfl⟩, _⟩, ht⟩, heq⟩ := h
  simp only [Prod.mk.injEq] at heq
  obtain ⟨rfl, rfl, rfl⟩ := heq
  have h4 := o.quad.four
  have he : IsEdge m (2 * i) := ⟨by omega, by omega⟩
  simp only [isTriangleEdge, Bool.and_eq_true, decide_eq_true_eq] at ht
  obtain ⟨⟨⟨h1, h2⟩, _⟩, h3⟩ := ht
  refine ⟨hin _ he, hin _ (he.opp o), hin _ ((he.left o).opp o), ?_, ?_, ?_⟩
  · have h5 := orient_ccw.mp h3
    unfold cr at h5; unfold area2; linarith
  · have := Point.ltB_iff.mp h1; rw [Point.lt_iff] at this; exact this
  · have := Point.ltB_iff.mp h2; rw [Point.lt_iff] at this; exact this

/-- C38 (finding): `DelaunayTriangulation` of fewer than two points has no border edge, and as its class defines
no truth value `to_boundary_points` starts its walk nevertheless and fails with an `AssertionError`, instead of
returning the points. -/
theorem C38_boundary_of_one_point (p : Point) (fuel : Nat) :
    (delaunayFromPoints [p] fuel) = some (fromPoints [p], none) ∧
    (fromPoints [p]).toBoundaryPoints none fuel = some (.error .assertionError) := by
  constructor
  · simp [delaunayFromPoints, deduplicate, buildDelaunay, fromPoints, List.mergeSort]
  · rfl

/-! ### Non-vacuity -/

/-- A mesh with two triangles sharing a diagonal, built by operations. -/
theorem C38_example_swap : ∃ m e, ReachableMesh [⟨0, 0⟩, ⟨2, 0⟩, ⟨2, 2⟩, ⟨0, 2⟩] m ∧ IsEdge m e ∧
    m.toStartIndex e ≠ m.toEndIndex e ∧ m.toLeftFromStart e ≠ e ∧
    m.toLeftFromStart (toOppositeEdge e) ≠ toOppositeEdge e ∧ m.trianglesVertices.length = 2 := by
  let P : List Point := [⟨0, 0⟩, ⟨2, 0⟩, ⟨2, 2⟩, ⟨0, 2⟩]
  have r1 : ReachableMesh P _ := .create (i := 0) (j := 1) .new (by decide) (by decide)
  have r2 : ReachableMesh P _ := .create (i := 1) (j := 2) r1 (by decide) (by decide)
  have r3 : ReachableMesh P _ := .splice (a := 2) (b := 4) r2 (by unfold IsEdge; decide +kernel)
    (by unfold IsEdge; decide +kernel) (by decide +kernel)
  have r4 : ReachableMesh P _ := .connect (a := 4) (b := 0) r3 (by unfold IsEdge; decide +kernel)
    (by unfold IsEdge; decide +kernel)
  have r5 : ReachableMesh P _ := .create (i := 2) (j := 3) r4 (by decide) (by decide)
  have r6 : ReachableMesh P _ := .splice (a := 6) (b := 12) r5 (by unfold IsEdge; decide +kernel)
    (by unfold IsEdge; decide +kernel) (by decide +kernel)
  have r7 : ReachableMesh P _ := .connect (a := 12) (b := 10) r6 (by unfold IsEdge; decide +kernel)
    (by unfold IsEdge; decide +kernel)
  exact ⟨_, 8, r7, by unfold IsEdge; decide +kernel, by decide +kernel, by decide +kernel, by decide +kernel,
    by decide +kernel⟩

/-- The construction completes, for instance on the corners and the centre of a square. -/
theorem C38_example_delaunay : ∃ r, (fromPoints [⟨0, 0⟩, ⟨0, 2⟩, ⟨1, 1⟩, ⟨2, 0⟩, ⟨2, 2⟩]).buildDelaunay 20 = some r ∧
    r.1.trianglesVertices.length = 4 := by
  have h : (((fromPoints [⟨0, 0⟩, ⟨0, 2⟩, ⟨1, 1⟩, ⟨2, 0⟩, ⟨2, 2⟩]).buildDelaunay 20).map
    fun r => r.1.trianglesVertices.length) = some 4 := by decide +kernel
  rw [Option.map_eq_some_iff] at h
  exact h

end Rene
