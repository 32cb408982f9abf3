import Verif.Model.Trapezoidation
import Verif.Lemmas.Geometry
import Mathlib.Data.Finset.Card
import Mathlib.Data.Finset.Range
import Mathlib.Data.Finset.Max
import Mathlib.Order.Interval.Finset.Nat
import Mathlib.Tactic.NormNum
import Mathlib.Tactic.Linarith

/-! Facts about the list of nodes of a trapezoidation: how the primitive operations change it, walks in the
search graph and their termination. -/

namespace Rene.Seidel
open Rene Spec

/-- The node, when it is not a leaf. -/
def inner (nodes : Nodes) (i : Nat) : Option Node :=
  match nodes[i]? with
  | some (.x p l r) => some (.x p l r)
  | some (.y e b a) => some (.y e b a)
  | _ => none

/-- Not a leaf. -/
def Node.isInner : Node → Bool
  | .leaf _ => false
  | _ => true

/-- The default trapezoid. -/
def noTrap : Trap := ⟨false, 0, 0, 0, 0, none, none, none, none⟩

theorem trapAt_leaf {nodes : Nodes} {i : Nat} {t : Trap} (h : nodes[i]? = some (.leaf t)) : trapAt nodes i = t := by
  simp [trapAt, h]

theorem isLeaf_iff {nodes : Nodes} {i : Nat} : isLeaf nodes i = true ↔ nodes[i]? = some (.leaf (trapAt nodes i)) := by
  unfold isLeaf trapAt
  split <;> simp_all

theorem isLeaf_lt {nodes : Nodes} {i : Nat} (h : isLeaf nodes i = true) : i < nodes.length := by
  rw [isLeaf_iff] at h
  exact (List.getElem?_eq_some_iff.mp h).1

theorem inner_lt {nodes : Nodes} {i : Nat} {n : Node} (h : inner nodes i = some n) : i < nodes.length := by
  unfold inner at h
  split at h <;> first | exact (List.getElem?_eq_some_iff.mp (by assumption)).1 | simp at h

theorem inner_getElem {nodes : Nodes} {i : Nat} {n : Node} (h : inner nodes i = some n) : nodes[i]? = some n := by
  unfold inner at h
  split at h <;> simp_all

theorem inner_isInner {nodes : Nodes} {i : Nat} {n : Node} (h : inner nodes i = some n) : n.isInner = true := by
  unfold inner at h
  split at h <;> first | (simp at h; done) | (cases h; rfl)

theorem leaf_not_inner {nodes : Nodes} {i : Nat} (h : isLeaf nodes i = true) : inner nodes i = none := by
  rw [isLeaf_iff] at h; simp [inner, h]

theorem not_leaf_of_inner {nodes : Nodes} {i : Nat} {n : Node} (h : inner nodes i = some n) :
    isLeaf nodes i = false := by
  have h1 := inner_isInner h
  unfold isLeaf
  rw [inner_getElem h]
  cases n <;> simp_all [Node.isInner]

theorem leaf_or_inner {nodes : Nodes} {i : Nat} (h : i < nodes.length) :
    isLeaf nodes i = true ∨ ∃ n, inner nodes i = some n := by
  unfold isLeaf inner
  rw [List.getElem?_eq_getElem h]
  cases nodes[i] <;> simp

/-! ### Appending -/

theorem getElem?_append_one (nodes : Nodes) (n : Node) (i : Nat) :
    (nodes ++ [n])[i]? = if i = nodes.length then some n else nodes[i]? := by
  split
  · next h => subst h; simp
  · next h =>
    rcases Nat.lt_or_ge i nodes.length with g | g
    · rw [List.getElem?_append_left g]
    · rw [List.getElem?_append_right g, List.getElem?_eq_none (l := nodes) g, List.getElem?_eq_none]
      simp; omega

theorem isLeaf_append_leaf (nodes : Nodes) (t : Trap) (i : Nat) :
    isLeaf (nodes ++ [.leaf t]) i = (decide (i = nodes.length) || isLeaf nodes i) := by
  unfold isLeaf; rw [getElem?_append_one]
  by_cases h : i = nodes.length <;> simp [h]

theorem trapAt_append_leaf (nodes : Nodes) (t : Trap) (i : Nat) :
    trapAt (nodes ++ [.leaf t]) i = if i = nodes.length then t else trapAt nodes i := by
  unfold trapAt; rw [getElem?_append_one]
  by_cases h : i = nodes.length <;> simp [h]

theorem inner_append_leaf (nodes : Nodes) (t : Trap) (i : Nat) :
    inner (nodes ++ [.leaf t]) i = inner nodes i := by
  unfold inner; rw [getElem?_append_one]
  by_cases h : i = nodes.length <;> simp [h]

theorem isLeaf_append_inner (nodes : Nodes) {n : Node} (hn : n.isInner = true) (i : Nat) :
    isLeaf (nodes ++ [n]) i = isLeaf nodes i := by
  unfold isLeaf; rw [getElem?_append_one]
  by_cases h : i = nodes.length
  · cases n <;> simp_all [Node.isInner]
  · simp [h]

theorem trapAt_append_inner (nodes : Nodes) {n : Node} (hn : n.isInner = true) (i : Nat) :
    trapAt (nodes ++ [n]) i = trapAt nodes i := by
  unfold trapAt; rw [getElem?_append_one]
  by_cases h : i = nodes.length
  · cases n <;> simp_all [Node.isInner]
  · simp [h]

theorem inner_append_inner (nodes : Nodes) {n : Node} (hn : n.isInner = true) (i : Nat) :
    inner (nodes ++ [n]) i = if i = nodes.length then some n else inner nodes i := by
  unfold inner; rw [getElem?_append_one]
  by_cases h : i = nodes.length
  · cases n <;> simp_all [Node.isInner]
  · simp [h]

/-! ### Changing a trapezoid -/

theorem modTrap_length (nodes : Nodes) (i : Nat) (f : Trap → Trap) : (modTrap nodes i f).length = nodes.length := by
  unfold modTrap; split <;> simp

theorem modTrap_getElem? (nodes : Nodes) (i : Nat) (f : Trap → Trap) (j : Nat) :
    (modTrap nodes i f)[j]? =
      if i = j ∧ isLeaf nodes i = true then some (.leaf (f (trapAt nodes i))) else nodes[j]? := by
  unfold modTrap isLeaf trapAt
  rcases h : nodes[i]? with - | (t | - | -)
  · simp
  · have hi := (List.getElem?_eq_some_iff.mp h).1
    simp only [List.getElem?_set]
    by_cases g : i = j
    · subst g; simp [hi]
    · simp [g]
  · simp
  · simp

theorem isLeaf_modTrap (nodes : Nodes) (i : Nat) (f : Trap → Trap) (j : Nat) :
    isLeaf (modTrap nodes i f) j = isLeaf nodes j := by
  conv_lhs => unfold isLeaf
  rw [modTrap_getElem?]
  split
  · next h =>
    split at h
    · next g => rw [← g.1, g.2]
    · unfold isLeaf; rw [h]
  · next h =>
    split at h
    · next g => exact absurd rfl (h _)
    · unfold isLeaf
      split
      · exact absurd (by assumption) (h _)
      · rfl

theorem inner_modTrap (nodes : Nodes) (i : Nat) (f : Trap → Trap) (j : Nat) :
    inner (modTrap nodes i f) j = inner nodes j := by
  conv_lhs => unfold inner
  rw [modTrap_getElem?]
  by_cases g : i = j ∧ isLeaf nodes i = true
  · rw [if_pos g]
    obtain ⟨rfl, g⟩ := g
    rw [leaf_not_inner g]
  · rw [if_neg g]; rfl

theorem trapAt_modTrap (nodes : Nodes) (i : Nat) (f : Trap → Trap) (j : Nat) :
    trapAt (modTrap nodes i f) j = if j = i ∧ isLeaf nodes i = true then f (trapAt nodes i) else trapAt nodes j := by
  conv_lhs => unfold trapAt
  rw [modTrap_getElem?]
  by_cases g : i = j ∧ isLeaf nodes i = true
  · rw [if_pos g, if_pos ⟨g.1.symm, g.2⟩]
  · rw [if_neg g, if_neg (fun h => g ⟨h.1.symm, h.2⟩)]; rfl

theorem modTrap_append_inner (nodes : Nodes) {n : Node} (hn : n.isInner = true) (i : Nat) (f : Trap → Trap) :
    modTrap (nodes ++ [n]) i f = modTrap nodes i f ++ [n] := by
  apply List.ext_getElem?
  intro j
  rw [modTrap_getElem?, getElem?_append_one, getElem?_append_one, modTrap_length, modTrap_getElem?,
    isLeaf_append_inner _ hn, trapAt_append_inner _ hn]
  by_cases h : i = j ∧ isLeaf nodes i = true
  · have := isLeaf_lt h.2
    have g : j ≠ nodes.length := by omega
    simp [h, g]
  · simp [h]

/-! ### Putting a node instead of a leaf -/

theorem replaceNode_append (nodes : Nodes) (n : Node) (t : Nat) :
    replaceNode (nodes ++ [n]) t nodes.length = .ok (nodes.set t n) := by
  unfold replaceNode
  simp

theorem isLeaf_set (nodes : Nodes) {n : Node} (hn : n.isInner = true) (t i : Nat) :
    isLeaf (nodes.set t n) i = (!decide (i = t) && isLeaf nodes i) := by
  unfold isLeaf; rw [List.getElem?_set]
  by_cases h : t = i
  · subst h
    by_cases g : t < nodes.length
    · cases n <;> simp_all [Node.isInner]
    · simp [g]
  · have h' : ¬ i = t := fun q => h q.symm
    simp [h, h']

theorem trapAt_set (nodes : Nodes) {n : Node} (hn : n.isInner = true) (t i : Nat) (h : i ≠ t) :
    trapAt (nodes.set t n) i = trapAt nodes i := by
  unfold trapAt; rw [List.getElem?_set, if_neg (fun q => h q.symm)]

theorem inner_set (nodes : Nodes) {n : Node} (hn : n.isInner = true) (t i : Nat) (ht : t < nodes.length) :
    inner (nodes.set t n) i = if i = t then some n else inner nodes i := by
  unfold inner; rw [List.getElem?_set]
  by_cases h : t = i
  · subst h
    cases n <;> simp_all [Node.isInner]
  · have h' : ¬ i = t := fun q => h q.symm
    simp [h, h']

/-! ### Termination -/

/-- The children of a node. -/
def Node.children : Node → List Nat
  | .leaf _ => []
  | .x _ l r => [l, r]
  | .y _ b a => [b, a]

/-- The graph is finite and acyclic: children exist, and a rank grows towards the leaves. -/
def Ranked (nodes : Nodes) : Prop :=
  0 < nodes.length ∧ ∃ rk : Nat → Nat, ∀ i n, inner nodes i = some n → ∀ j ∈ n.children,
    j < nodes.length ∧ ((inner nodes j).isSome = true → rk i < rk j)

open Classical in
/-- Number of inner nodes not above the given one. -/
noncomputable def depthBound (nodes : Nodes) (rk : Nat → Nat) (i : Nat) : Nat :=
  if (inner nodes i).isSome then
    ((Finset.range nodes.length).filter fun j => (inner nodes j).isSome = true ∧ rk i ≤ rk j).card
  else 0

theorem depthBound_child {nodes : Nodes} {rk : Nat → Nat} {i j : Nat} {n : Node} (hi : inner nodes i = some n)
    (h : (inner nodes j).isSome = true → rk i < rk j) : depthBound nodes rk j < depthBound nodes rk i := by
  classical
  unfold depthBound
  rw [hi]
  simp only [Option.isSome_some, if_true]
  by_cases hj : (inner nodes j).isSome = true
  · rw [if_pos hj]
    refine Finset.card_lt_card ?_
    rw [Finset.ssubset_iff_of_subset]
    · refine ⟨i, ?_, ?_⟩
      · simp only [Finset.mem_filter, Finset.mem_range]
        exact ⟨inner_lt hi, by simp [hi], le_refl _⟩
      · simp only [Finset.mem_filter, not_and]
        intro _ _
        have := h hj; omega
    · intro k
      simp only [Finset.mem_filter, Finset.mem_range]
      have := h hj
      rintro ⟨h1, h2, h3⟩; exact ⟨h1, h2, by omega⟩
  · rw [if_neg hj]
    rw [Finset.card_pos]
    refine ⟨i, ?_⟩
    simp only [Finset.mem_filter, Finset.mem_range]
    exact ⟨inner_lt hi, by simp [hi], le_refl _⟩

theorem depthBound_le (nodes : Nodes) (rk : Nat → Nat) (i : Nat) : depthBound nodes rk i ≤ nodes.length := by
  classical
  unfold depthBound
  split
  · exact (Finset.card_filter_le _ _).trans (by simp)
  · omega

/-- In a non-empty ranked graph there is a leaf, so there are fewer inner nodes than nodes. -/
theorem Ranked.depthBound_lt {nodes : Nodes} (h0 : 0 < nodes.length) {rk : Nat → Nat}
    (h : ∀ i n, inner nodes i = some n → ∀ j ∈ n.children,
      j < nodes.length ∧ ((inner nodes j).isSome = true → rk i < rk j)) (i : Nat) :
    depthBound nodes rk i < nodes.length := by
  classical
  have hleaf : ∃ j, j < nodes.length ∧ isLeaf nodes j = true := by
    by_contra hno
    push Not at hno
    have hall : ∀ j < nodes.length, (inner nodes j).isSome = true := by
      intro j hj
      rcases leaf_or_inner hj with g | ⟨n, g⟩
      · exact absurd g (hno j hj)
      · simp [g]
    obtain ⟨m, hm, hmax⟩ := (Finset.range nodes.length).exists_max_image rk ⟨0, Finset.mem_range.mpr h0⟩
    have hm' := Finset.mem_range.mp hm
    obtain ⟨n, hn⟩ := Option.isSome_iff_exists.mp (hall m hm')
    have hc : ∃ j, j ∈ n.children := by
      have := inner_isInner hn
      cases n <;> simp_all [Node.isInner, Node.children] <;> exact ⟨_, Or.inl rfl⟩
    obtain ⟨j, hj⟩ := hc
    have := h m n hn j hj
    have h1 := this.2 (hall j this.1)
    have h2 := hmax j (Finset.mem_range.mpr this.1)
    omega
  obtain ⟨j, hj, hl⟩ := hleaf
  unfold depthBound
  split
  · calc _ ≤ ((Finset.range nodes.length).erase j).card := by
          refine Finset.card_le_card ?_
          intro k
          simp only [Finset.mem_filter, Finset.mem_range, Finset.mem_erase]
          rintro ⟨h1, h2, _⟩
          refine ⟨?_, h1⟩
          rintro rfl
          rw [leaf_not_inner hl] at h2; simp at h2
      _ < nodes.length := by
          rw [Finset.card_erase_of_mem (Finset.mem_range.mpr hj), Finset.card_range]; omega
  · omega

theorem locateFrom_terminates {nodes : Nodes} (edges : List Edge) (endpoints : List Point) (p : Point)
    {rk : Nat → Nat} (h : ∀ i n, inner nodes i = some n → ∀ j ∈ n.children,
      j < nodes.length ∧ ((inner nodes j).isSome = true → rk i < rk j)) :
    ∀ (fuel i : Nat), i < nodes.length → depthBound nodes rk i < fuel →
      (locateFrom edges endpoints nodes p fuel i).isSome = true := by
  intro fuel
  induction fuel with
  | zero => intro i _ h'; omega
  | succ fuel ih =>
    intro i hi hd
    unfold locateFrom
    have key : ∀ n, inner nodes i = some n → ∀ j ∈ n.children,
        (locateFrom edges endpoints nodes p fuel j).isSome = true := by
      intro n hn j hj
      have := h i n hn j hj
      exact ih j this.1 (by have := depthBound_child hn this.2; omega)
    rcases leaf_or_inner hi with hl | ⟨n, hn⟩
    · rw [isLeaf_iff.mp hl]; simp
    · rw [inner_getElem hn]
      have hk := key n hn
      cases n with
      | leaf t => simp
      | x q l r =>
        simp only [Node.children, List.mem_cons, List.not_mem_nil, or_false, forall_eq_or_imp, forall_eq] at hk
        simp only
        split
        · exact hk.1
        · split
          · exact hk.2
          · rfl
      | y e b a =>
        simp only [Node.children, List.mem_cons, List.not_mem_nil, or_false, forall_eq_or_imp, forall_eq] at hk
        simp only
        split
        · exact hk.2
        · exact hk.1
        · rfl

theorem heightFrom_terminates {nodes : Nodes} {rk : Nat → Nat} (h : ∀ i n, inner nodes i = some n → ∀ j ∈ n.children,
      j < nodes.length ∧ ((inner nodes j).isSome = true → rk i < rk j)) :
    ∀ (fuel i : Nat), i < nodes.length → depthBound nodes rk i < fuel →
      ∃ k, heightFrom nodes fuel i = some k ∧ k ≤ depthBound nodes rk i := by
  intro fuel
  induction fuel with
  | zero => intro i _ h'; omega
  | succ fuel ih =>
    intro i hi hd
    unfold heightFrom
    have key : ∀ n, inner nodes i = some n → ∀ j ∈ n.children,
        ∃ k, heightFrom nodes fuel j = some k ∧ k + 1 ≤ depthBound nodes rk i := by
      intro n hn j hj
      have := h i n hn j hj
      have hlt := depthBound_child hn this.2
      obtain ⟨k, hk, hle⟩ := ih j this.1 (by omega)
      exact ⟨k, hk, by omega⟩
    rcases leaf_or_inner hi with hl | ⟨n, hn⟩
    · rw [isLeaf_iff.mp hl]; exact ⟨0, rfl, by omega⟩
    · rw [inner_getElem hn]
      have hk := key n hn
      cases n with
      | leaf t => exact absurd (inner_isInner hn) (by simp [Node.isInner])
      | x q l r =>
        simp only [Node.children, List.mem_cons, List.not_mem_nil, or_false, forall_eq_or_imp, forall_eq] at hk
        obtain ⟨⟨k1, h1, g1⟩, k2, h2, g2⟩ := hk
        simp only [h1, h2]
        exact ⟨_, rfl, by omega⟩
      | y e b a =>
        simp only [Node.children, List.mem_cons, List.not_mem_nil, or_false, forall_eq_or_imp, forall_eq] at hk
        obtain ⟨⟨k1, h1, g1⟩, k2, h2, g2⟩ := hk
        simp only [h1, h2]
        exact ⟨_, rfl, by omega⟩

/-- The length of the path followed by a location. -/
def stepsFrom (edges : List Edge) (endpoints : List Point) (nodes : Nodes) (point : Point) : Nat → Nat → Nat
  | 0, _ => 0
  | fuel + 1, i =>
    match nodes[i]? with
    | some (.x p left right) =>
      if point.ltB (pt endpoints p) then stepsFrom edges endpoints nodes point fuel left + 1
      else if (pt endpoints p).ltB point then stepsFrom edges endpoints nodes point fuel right + 1
      else 0
    | some (.y e below above) =>
      match (edgeAt edges e).orientationOf point endpoints with
      | .counterclockwise => stepsFrom edges endpoints nodes point fuel above + 1
      | .clockwise => stepsFrom edges endpoints nodes point fuel below + 1
      | .collinear => 0
    | _ => 0

theorem stepsFrom_le_height (edges : List Edge) (endpoints : List Point) (nodes : Nodes) (p : Point) :
    ∀ (fuel i k : Nat), heightFrom nodes fuel i = some k → stepsFrom edges endpoints nodes p fuel i ≤ k := by
  intro fuel
  induction fuel with
  | zero => intro i k h; simp [heightFrom] at h
  | succ fuel ih =>
    intro i k h
    unfold heightFrom at h
    unfold stepsFrom
    rcases hn : nodes[i]? with - | (t | ⟨q, l, r⟩ | ⟨e, b, a⟩)
    · simp
    · simp
    · rw [hn] at h
      simp only at h ⊢
      split at h
      · next a b ha hb =>
        cases h
        have h1 := ih l a ha
        have h2 := ih r b hb
        split
        · omega
        · split <;> omega
      · simp at h
    · rw [hn] at h
      simp only at h ⊢
      split at h
      · next a' b' ha hb =>
        cases h
        have h1 := ih b a' ha
        have h2 := ih a b' hb
        split <;> omega
      · simp at h

end Rene.Seidel
