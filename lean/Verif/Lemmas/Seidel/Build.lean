import Verif.Lemmas.Seidel.Collect

/-! The construction of the graph, edge by edge. -/

namespace Rene.Seidel
open Rene Spec
variable {g : Geo} {nodes : Nodes} {e m : ℕ}

/-- When edges have been added, the root is not a leaf. -/
theorem Stops.root (hg : g.Good) (hm : 0 < m) (hn : 0 < g.n) (h : Stops g m nodes) : isLeaf nodes 0 = false := by
  obtain ⟨x, x1, x2, x3⟩ := Geo.exists_between_notin (hg.pos 0 hn) g.xs
  obtain ⟨j, n, hw, hi, -⟩ := h 0 hm x (Geo.notin_xs x3) x1 x2
  by_contra hc
  have hc : isLeaf nodes 0 = true := by simpa using hc
  have := hw.leaf_eq hc
  subst this
  rw [leaf_not_inner hc] at hi
  cases hi

/-- The graph of the box alone. -/
def boxNodes (g : Geo) : Nodes :=
  [.leaf ⟨(edgeAt g.edges (g.n + 1)).interiorToLeft && !(edgeAt g.edges g.n).interiorToLeft,
    g.k + 2, g.k + 3, g.n + 1, g.n, none, none, none, none⟩]

theorem boxNodes_leaf {i : ℕ} : isLeaf (boxNodes g) i = true ↔ i = 0 := by
  constructor
  · intro h
    have := isLeaf_lt h
    simp [boxNodes] at this; exact this
  · rintro rfl; rfl

theorem boxNodes_inner {i : ℕ} : inner (boxNodes g) i = none := by
  rcases i with _ | i
  · rfl
  · by_contra h
    obtain ⟨n, hn⟩ := Option.ne_none_iff_exists'.mp h
    have := inner_lt hn
    simp [boxNodes] at this

theorem boxNodes_walk {x y : ℚ} {i : ℕ} (h : Walk g (boxNodes g) x y 0 i) : i = 0 :=
  h.leaf_eq (boxNodes_leaf.mpr rfl)

theorem boxNodes_St (hg : g.Good) : St g 0 (boxNodes g) where
  dec :=
    { rk := ⟨by simp [boxNodes], fun _ => 0, fun i n hn => by rw [boxNodes_inner] at hn; cases hn⟩
      trap := fun i hi => by
        obtain rfl := boxNodes_leaf.mp hi
        exact
          { vl := Or.inr (Or.inl rfl), vr := Or.inr (Or.inr rfl), lt := hg.box
            b2 := by show g.n + 1 < g.n + 2; omega
            a2 := by show g.n < g.n + 2; omega
            sbl := fun q => absurd q (by show ¬ (g.n + 1 < g.n); omega)
            sbr := fun q => absurd q (by show ¬ (g.n + 1 < g.n); omega)
            sal := fun q => absurd q (lt_irrefl _)
            sar := fun q => absurd q (lt_irrefl _)
            ord := fun w _ _ => hg.tb w }
      sound := fun t y i hb hw hi => by
        obtain rfl := boxNodes_leaf.mp hi
        exact hb
      soundY := fun t y i e b a _ _ hn => by rw [boxNodes_inner] at hn; cases hn
      edg := fun i hi => by
        obtain rfl := boxNodes_leaf.mp hi
        exact ⟨Or.inr rfl, Or.inr rfl⟩
      xnode := fun i p l r hn => by rw [boxNodes_inner] at hn; cases hn
      back := fun t y i _ hi _ => by
        obtain rfl := boxNodes_leaf.mp hi
        exact Relation.ReflTransGen.refl }
  cu := ⟨⟨fun i hi j => by
      obtain rfl := boxNodes_leaf.mp hi
      constructor
      · intro h; cases h
      · rintro ⟨h1, _, h2⟩
        obtain rfl := boxNodes_leaf.mp h1
        exact absurd h2 (ne_of_gt hg.box),
    fun j hj i => by
      obtain rfl := boxNodes_leaf.mp hj
      constructor
      · intro h; cases h
      · rintro ⟨h1, _, h2⟩
        obtain rfl := boxNodes_leaf.mp h1
        exact absurd h2 (ne_of_gt hg.box)⟩⟩
  cl := ⟨⟨fun i hi j => by
      obtain rfl := boxNodes_leaf.mp hi
      constructor
      · intro h; cases h
      · rintro ⟨h1, _, h2⟩
        obtain rfl := boxNodes_leaf.mp h1
        exact absurd h2 (ne_of_gt hg.box),
    fun j hj i => by
      obtain rfl := boxNodes_leaf.mp hj
      constructor
      · intro h; cases h
      · rintro ⟨h1, _, h2⟩
        obtain rfl := boxNodes_leaf.mp h1
        exact absurd h2 (ne_of_gt hg.box)⟩⟩
  wall := fun i hi q => by
    obtain rfl := boxNodes_leaf.mp hi
    exact absurd q (by show ¬ (g.k + 2 < g.k); omega)

theorem boxNodes_first (hg : g.Good) (hn : 0 < g.n) :
    ∃ N, addEdgeToSingle g.edges g.endpoints (boxNodes g) 0 0 = .ok N ∧ St g 1 N ∧ Stops g 1 N := by
  have S := boxNodes_St hg
  have S' : St g 1 (boxNodes g) := ⟨S.dec.mono (by omega), S.cu, S.cl, S.wall⟩
  have hl : isLeaf (boxNodes g) 0 = true := rfl
  have hL := hg.inx _ (hg.lft 0 hn)
  have hR := hg.inx _ (hg.rgt 0 hn)
  obtain ⟨N, h1, h2, h3, -⟩ := S'.single hg hn (by omega) (t := 0)
    (fun i hi => by
      obtain rfl := boxNodes_leaf.mp hi
      exact ⟨by show g.n ≠ 0; omega, by show g.n + 1 ≠ 0; omega⟩)
    ⟨hl, hR.2.le, hR.1, hL.2, fun w w1 w2 w3 w4 => by
      have := edge_inBox hg hn w3.le w4.le
      exact ⟨this.2.2.1, this.2.2.2⟩⟩ hL.1.le
  refine ⟨N, h1, h2, ?_⟩
  intro d hd x hx x1 x2
  have : d = 0 := by omega
  subst this
  exact h3 x hx x1 x2

theorem addEdges_ok (hg : g.Good) : ∀ (c e : ℕ) (nodes : Nodes), 0 < e → e + c ≤ g.n → St g e nodes → Stops g e nodes →
    ∃ N, addEdges g.edges g.endpoints nodes (List.range' e c) = .ok N ∧ St g (e + c) N ∧ Stops g (e + c) N
  | 0, e, nodes, _, _, S, hs => ⟨nodes, rfl, S, hs⟩
  | c + 1, e, nodes, he, hc, S, hs => by
    obtain ⟨M, m1, m2, m3⟩ := addEdge_ok hg (by omega) S hs (hs.root hg he (by omega))
    obtain ⟨N, n1, n2, n3⟩ := addEdges_ok hg c (e + 1) M (by omega) (by omega) m2 m3
    refine ⟨N, ?_, by rw [show e + (c + 1) = e + 1 + c by omega]; exact n2,
      by rw [show e + (c + 1) = e + 1 + c by omega]; exact n3⟩
    rw [List.range'_succ]
    simp only [addEdges, m1, bind, Except.bind]
    exact n1

/-- The construction succeeds, and searches end in trapezoids and on edges as they should. -/
theorem fromBox_ok (hg : g.Good) {box : Box} {edges : List Edge} {endpoints : List Point}
    (h1 : g.edges = edges ++ [⟨true, endpoints.length, endpoints.length + 1⟩,
      ⟨false, endpoints.length + 2, endpoints.length + 3⟩])
    (h2 : g.endpoints = endpoints ++ boxCorners box) (h3 : g.n = edges.length) (h4 : g.k = endpoints.length)
    (h5 : edges ≠ []) (h6 : endpoints ≠ []) :
    ∃ N, fromBox box edges endpoints = .ok ⟨g.edges, g.endpoints, N⟩ ∧ St g g.n N ∧ Stops g g.n N := by
  have hn : 0 < g.n := by rw [h3]; exact List.length_pos_iff.mpr h5
  obtain ⟨M, m1, m2, m3⟩ := boxNodes_first hg hn
  obtain ⟨N, n1, n2, n3⟩ := addEdges_ok hg (g.n - 1) 1 M (by omega) (by omega) m2 m3
  rw [show 1 + (g.n - 1) = g.n by omega] at n2 n3
  refine ⟨N, ?_, n2, n3⟩
  unfold fromBox
  rw [if_neg h6]
  unfold boxNodes at m1
  rw [← h4] at h1
  simp only [createTrapezoid, List.nil_append, List.length_nil, ← h1, ← h2, ← h3, ← h4, m1, n1, bind, Except.bind,
    pure, Except.pure]

end Rene.Seidel
