import Verif.Lemmas.Seidel.Split2

/-! Facts about every trapezoidation which the constructors return, for all inputs. -/

namespace Rene.Seidel
open Rene Spec

theorem Split.notin {edges : List Edge} {nodes nodes' : Nodes} {e t a b la ra : Nat} {lo ro : Option Nat}
    (s : Split edges nodes nodes' e t a b la ra lo ro) : a ≠ t ∨ nodes.length ≤ a := by
  rcases s.above with h | h
  · right; exact h.1
  · left; exact h.2.1

/-- Induction over the trapezoids split by one edge, after the first one. -/
theorem addEdgeRest_induct {edges : List Edge} {endpoints : List Point} {e : Nat} {P : Nodes → Prop}
    (hstep : ∀ nodes nodes' t a b la ra lo ro, isLeaf nodes t = true → P nodes →
      Split edges nodes nodes' e t a b la ra lo ro → P nodes') :
    ∀ (rest : List Nat) (nodes : Nodes) (pa pb : Nat) (N : Nodes), isLeaf nodes pa = true → isLeaf nodes pb = true →
      pa ≠ pb → (∀ t ∈ rest, isLeaf nodes t = true ∧ t ≠ pa ∧ t ≠ pb) → rest.Nodup → P nodes →
      addEdgeRest edges endpoints e nodes pa pb rest = .ok N → P N := by
  intro rest
  induction rest with
  | nil =>
    intro nodes pa pb N _ _ _ _ _ hP h
    simp only [addEdgeRest] at h; cases h; exact hP
  | cons t rest ih =>
    intro nodes pa pb N ha hb hab hr hnd hP h
    obtain ⟨ht, hta, htb⟩ := hr t (by simp)
    cases rest with
    | nil =>
      simp only [addEdgeRest] at h
      obtain ⟨ur, lr, ul, ll, rfl⟩ := addEdgeToLast_ok ht ha hb hta.symm htb.symm hab h
      obtain ⟨ro, -, -, s⟩ := lastP_split (endpoints := endpoints) (edges := edges) (e := e) (ur := ur) (lr := lr)
        (ul := ul) (ll := ll) ht ha hb hta.symm htb.symm hab
      exact hstep _ _ _ _ _ _ _ _ _ ht hP s
    | cons t2 rest =>
      simp only [addEdgeRest] at h
      obtain ⟨r, h1, h⟩ := bind_ok h
      obtain ⟨ur, lr, ul, ll, rfl⟩ := addEdgeToMiddle_ok ht ha hta.symm h1
      have s := middleP_split (edges := edges) (e := e) (ur := ur) (lr := lr) (ul := ul) (ll := ll)
        ht ha hb hta.symm htb.symm hab
      refine ih _ _ _ _ ?_ ?_ s.ab ?_ (List.nodup_cons.mp hnd).2 (hstep _ _ _ _ _ _ _ _ _ ht hP s) h
      · exact (s.leaf _).mpr (by right; left; rfl)
      · exact (s.leaf _).mpr (by right; right; left; rfl)
      · intro u hu
        obtain ⟨hu1, hu2, hu3⟩ := hr u (List.mem_cons_of_mem _ hu)
        have hut : u ≠ t := by rintro rfl; exact (List.nodup_cons.mp hnd).1 hu
        have hul := isLeaf_lt hu1
        obtain ⟨M, a, b, hM, -, -, -, -, -, -, -, aM, bM⟩ :=
          extAB_spec (edges := edges) (e := e) (right := (trapAt nodes t).right) (ul := ul) (ll := ll)
            ht ha hb hta.symm htb.symm hab
        refine ⟨(s.leaf _).mpr (Or.inl ⟨hu1, hut⟩), ?_, ?_⟩
        · unfold middleP; simp only [hM]
          rcases aM with g | g
          · omega
          · rw [g.1]; exact hu2
        · unfold middleP; simp only [hM]
          rcases bM with g | g
          · omega
          · rw [g.1]; exact hu3

theorem collectRight_leaf {edge : Edge} {endpoints : List Point} {nodes : Nodes} :
    ∀ (fuel t : Nat) (r : List Nat), isLeaf nodes t = true → collectRight edge endpoints nodes fuel t = .ok r →
      ∀ u ∈ r, isLeaf nodes u = true := by
  intro fuel
  induction fuel with
  | zero => intro t r _ h; simp [collectRight] at h
  | succ fuel ih =>
    intro t r ht h
    simp only [collectRight] at h
    split at h
    · split at h
      · simp at h
      · next i hi =>
        obtain ⟨nx, h1, h⟩ := bind_ok h
        obtain ⟨rest, h2, h⟩ := bind_ok h
        cases h
        unfold getTrapezoid at h1
        split at h1
        · next hl =>
          cases h1
          intro u hu
          rcases List.mem_cons.mp hu with rfl | hu
          · exact ht
          · exact ih _ _ hl h2 u hu
        · simp at h1
    · cases h
      intro u hu
      rw [List.mem_singleton.mp hu]; exact ht

theorem findIntersecting_leaf {edges : List Edge} {endpoints : List Point} {nodes : Nodes} {e : Nat} {r : List Nat}
    (h : findIntersecting edges endpoints nodes e = .ok r) : ∀ u ∈ r, isLeaf nodes u = true := by
  unfold findIntersecting at h
  obtain ⟨c, h1, h⟩ := bind_ok h
  unfold getTrapezoid at h1
  split at h1
  · next hl => cases h1; exact collectRight_leaf _ _ _ hl h
  · simp at h1

theorem addEdge_induct {edges : List Edge} {endpoints : List Point} {e : Nat} {P : Nodes → Prop} {nodes N : Nodes}
    (hstep : ∀ nodes nodes' t a b la ra lo ro, isLeaf nodes t = true → P nodes →
      Split edges nodes nodes' e t a b la ra lo ro → P nodes')
    (hP : P nodes) (h : addEdge edges endpoints nodes e = .ok N) : P N := by
  unfold addEdge at h
  obtain ⟨ts, h1, h⟩ := bind_ok h
  have hl := findIntersecting_leaf h1
  by_cases hnd : ts.Nodup
  · simp only [hnd, not_true_eq_false, if_false] at h
    match ts, hl, hnd, h with
    | [], _, _, h => cases h; exact hP
    | [t], hl, _, h =>
      have ht := hl t (by simp)
      obtain ⟨ur, lr, ul, ll, rfl⟩ := addEdgeToSingle_ok ht h
      exact hstep _ _ _ _ _ _ _ _ _ ht hP (singleP_split ht)
    | t :: t2 :: rest, hl, hnd, h =>
      have ht := hl t (by simp)
      obtain ⟨r, h2, h⟩ := bind_ok h
      obtain ⟨ur, lr, ul, ll, rfl⟩ := addEdgeToFirst_ok ht h2
      have s := firstP_split (edges := edges) (endpoints := endpoints) (e := e) (ur := ur) (lr := lr) (ul := ul)
        (ll := ll) ht
      refine addEdgeRest_induct hstep _ _ _ _ _ ?_ ?_ s.ab ?_ (List.nodup_cons.mp hnd).2
        (hstep _ _ _ _ _ _ _ _ _ ht hP s) h
      · exact (s.leaf _).mpr (by right; left; rfl)
      · exact (s.leaf _).mpr (by right; right; left; rfl)
      · intro u hu
        have hu1 := hl u (List.mem_cons_of_mem _ hu)
        have hut : u ≠ t := by rintro rfl; exact (List.nodup_cons.mp hnd).1 hu
        have hul := isLeaf_lt hu1
        exact ⟨(s.leaf _).mpr (Or.inl ⟨hu1, hut⟩), by omega, by omega⟩
  · simp only [hnd, not_false_eq_true, if_true] at h
    obtain ⟨_, h2, _⟩ := bind_ok h
    cases h2

theorem addEdges_induct {edges : List Edge} {endpoints : List Point} {P : Nodes → Prop} :
    ∀ (es : List Nat) {nodes N : Nodes},
    (∀ e ∈ es, ∀ nodes nodes' t a b la ra lo ro, isLeaf nodes t = true → P nodes →
      Split edges nodes nodes' e t a b la ra lo ro → P nodes') →
    P nodes → addEdges edges endpoints nodes es = .ok N → P N := by
  intro es
  induction es with
  | nil => intro nodes N _ hP h; cases h; exact hP
  | cons e es ih =>
    intro nodes N hs hP h
    simp only [addEdges] at h
    obtain ⟨N1, h1, h⟩ := bind_ok h
    exact ih (fun e' he' => hs e' (List.mem_cons_of_mem _ he'))
      (addEdge_induct (hs e (by simp)) hP h1) h

/-- Induction over the splittings made by a construction. -/
theorem fromBox_induct {box : Box} {edges : List Edge} {endpoints : List Point} {T : Trapezoidation}
    (h : fromBox box edges endpoints = .ok T) {P : Nodes → Prop}
    (h0 : P [.leaf (mkTrap (edges ++ [⟨true, endpoints.length, endpoints.length + 1⟩,
      ⟨false, endpoints.length + 2, endpoints.length + 3⟩]) (endpoints.length + 2) (endpoints.length + 3)
      (edges.length + 1) edges.length)])
    (hstep : ∀ e, e < max 1 edges.length → ∀ nodes nodes' t a b la ra lo ro, isLeaf nodes t = true → P nodes →
      Split (edges ++ [⟨true, endpoints.length, endpoints.length + 1⟩,
      ⟨false, endpoints.length + 2, endpoints.length + 3⟩]) nodes nodes' e t a b la ra lo ro → P nodes') :
    T.edges = edges ++ [⟨true, endpoints.length, endpoints.length + 1⟩,
      ⟨false, endpoints.length + 2, endpoints.length + 3⟩] ∧ T.endpoints = endpoints ++ boxCorners box ∧ P T.nodes := by
  unfold fromBox at h
  split at h
  · obtain ⟨_, h2, _⟩ := bind_ok h
    cases h2
  · simp only [createTrapezoid_eq, List.nil_append, List.length_nil, pure_bind] at h
    obtain ⟨N1, h1, h⟩ := bind_ok h
    obtain ⟨N2, h2, h⟩ := bind_ok h
    cases h
    refine ⟨rfl, rfl, ?_⟩
    refine addEdges_induct _ ?_ ?_ h2
    · intro e he
      refine hstep e ?_
      rw [List.mem_range'_1] at he; omega
    · obtain ⟨ur, lr, ul, ll, rfl⟩ := addEdgeToSingle_ok rfl h1
      exact hstep 0 (by omega) _ _ _ _ _ _ _ _ _ rfl h0 (singleP_split rfl)

theorem fromBox_ranked {box : Box} {edges : List Edge} {endpoints : List Point} {T : Trapezoidation}
    (h : fromBox box edges endpoints = .ok T) : Ranked T.nodes := by
  refine (fromBox_induct h (P := Ranked) ?_ ?_).2.2
  · refine ⟨by simp, fun _ => 0, ?_⟩
    intro i n hn
    have : i = 0 := by have := inner_lt hn; simp at this; exact this
    subst this
    simp [inner] at hn
  · intro e _ nodes nodes' t a b la ra lo ro ht hP s
    exact hP.split ht s

/-- No leaf is a part of the interior when no edge has it on its left. -/
theorem fromBox_noInterior {box : Box} {edges : List Edge} {endpoints : List Point} {T : Trapezoidation}
    (h : fromBox box edges endpoints = .ok T) (hf : ∀ x ∈ edges, x.interiorToLeft = false)
    (hne : edges ≠ []) :
    ∀ i, isLeaf T.nodes i = true → (trapAt T.nodes i).isComponent = false := by
  set E := edges ++ [⟨true, endpoints.length, endpoints.length + 1⟩,
      ⟨false, endpoints.length + 2, endpoints.length + 3⟩] with hE
  have hlow : ∀ e < edges.length, (edgeAt E e).interiorToLeft = false := by
    intro e he
    unfold edgeAt
    rw [hE, List.getD_eq_getElem?_getD, List.getElem?_append_left he, List.getElem?_eq_getElem he]
    exact hf _ (List.getElem_mem he)
  have hbot : (edgeAt E (edges.length + 1)).interiorToLeft = false := by
    unfold edgeAt
    rw [hE, List.getD_eq_getElem?_getD, List.getElem?_append_right (by omega)]
    simp
  have hpos : 0 < edges.length := List.length_pos_of_ne_nil hne
  let P : Nodes → Prop := fun N => ∀ i, isLeaf N i = true →
    (edgeAt E (trapAt N i).below).interiorToLeft = false ∧ (trapAt N i).isComponent = false
  have key := (fromBox_induct h (P := P) ?_ ?_).2.2
  · exact fun i hi => (key i hi).2
  · intro i hi
    have : i = 0 := by have := isLeaf_lt hi; simp at this; exact this
    subst this
    refine ⟨hbot, ?_⟩
    simp only [trapAt, List.getElem?_cons_zero, mkTrap, ← hE, hbot, Bool.false_and]
  · intro e he nodes nodes' t a b la ra lo ro ht hP s i hi
    have hel : (edgeAt E e).interiorToLeft = false := hlow e (by omega)
    have mk : ∀ (X : Trap) l r be ab, X.bare = mkTrap E l r be ab → (edgeAt E be).interiorToLeft = false →
        (edgeAt E X.below).interiorToLeft = false ∧ X.isComponent = false := by
      intro X l r be ab hX hb
      cases X
      simp only [Trap.bare, mkTrap, Trap.mk.injEq, and_true] at hX
      obtain ⟨h1, -, -, h4, -⟩ := hX
      simp only [h4, h1, hb, Bool.false_and, and_self]
    have old : ∀ (X Y : Trap) (r : Nat), X.bare = { Y.bare with right := r } →
        (edgeAt E Y.below).interiorToLeft = false ∧ Y.isComponent = false →
        (edgeAt E X.below).interiorToLeft = false ∧ X.isComponent = false := by
      intro X Y r hX hY
      cases X; cases Y
      simp only [Trap.bare, Trap.mk.injEq, and_true] at hX
      obtain ⟨h1, -, -, h4, -⟩ := hX
      simp only [h1, h4] at *
      exact hY
    by_cases hia : i = a
    · subst hia
      rcases s.above with g | g
      · exact mk _ _ _ _ _ g.2 hel
      · exact old _ _ _ g.2.2.2.2 (hP i g.2.2.1)
    by_cases hib : i = b
    · subst hib
      rcases s.below with g | g
      · exact mk _ _ _ _ _ g.2 (hP t ht).1
      · exact old _ _ _ g.2.2.2.2 (hP i g.2.2.1)
    rcases (s.leaf i).mp hi with g | g | g | g | g
    · have := s.keep i (isLeaf_lt g.1) g.2 hia hib
      exact old _ (trapAt nodes i) (trapAt nodes i).right (by rw [this]; rfl) (hP i g.1)
    · exact absurd g hia
    · exact absurd g hib
    · exact mk _ _ _ _ _ (s.left i g).2.2.2 (hP t ht).1
    · exact mk _ _ _ _ _ (s.right i g).2.2.2 (hP t ht).1

theorem locateFrom_notInterior {edges : List Edge} {endpoints : List Point} {nodes : Nodes} {p : Point}
    (h : ∀ i, isLeaf nodes i = true → (trapAt nodes i).isComponent = false) :
    ∀ fuel i, locateFrom edges endpoints nodes p fuel i ≠ some .interior := by
  intro fuel
  induction fuel with
  | zero => intro i; simp [locateFrom]
  | succ fuel ih =>
    intro i
    unfold locateFrom
    rcases hn : nodes[i]? with - | (t | ⟨q, l, r⟩ | ⟨e, b, a⟩)
    · simp
    · have hl : isLeaf nodes i = true := by simp [isLeaf, hn]
      have := h i hl
      rw [trapAt_leaf hn] at this
      simp [this]
    · simp only
      split
      · exact ih _
      · split
        · exact ih _
        · simp
    · simp only
      split
      · exact ih _
      · exact ih _
      · simp

end Rene.Seidel
