import Verif.Lemmas.Seidel.Graph

/-! The operations inserting an edge, in closed form. -/

namespace Rene.Seidel
open Rene Spec

def setUL (o : Option Nat) (t : Trap) : Trap := { t with upperLeft := o }
def setUR (o : Option Nat) (t : Trap) : Trap := { t with upperRight := o }
def setLL (o : Option Nat) (t : Trap) : Trap := { t with lowerLeft := o }
def setLR (o : Option Nat) (t : Trap) : Trap := { t with lowerRight := o }

/-- Setting a link of a trapezoid, and the converse link of its neighbour. -/
def link (fs fv : Option Nat → Trap → Trap) (N : Nodes) (a : Nat) : Option Nat → Nodes
  | none => modTrap N a (fs none)
  | some j => modTrap (modTrap N a (fs (some j))) j (fv (some a))

scoped notation "linkUL" => link setUL setUR
scoped notation "linkUR" => link setUR setUL
scoped notation "linkLL" => link setLL setLR
scoped notation "linkLR" => link setLR setLL

/-- The trapezoid without its links. -/
def Trap.bare (t : Trap) : Trap := ⟨t.isComponent, t.left, t.right, t.below, t.above, none, none, none, none⟩

/-- Setters which change links only. -/
def Bare (fs : Option Nat → Trap → Trap) : Prop := ∀ o t, (fs o t).bare = t.bare

theorem bare_UL : Bare setUL := fun _ _ => rfl
theorem bare_UR : Bare setUR := fun _ _ => rfl
theorem bare_LL : Bare setLL := fun _ _ => rfl
theorem bare_LR : Bare setLR := fun _ _ => rfl

section link
variable {fs fv : Option Nat → Trap → Trap} {N : Nodes} {a : Nat} {o : Option Nat}

theorem link_length : (link fs fv N a o).length = N.length := by
  cases o <;> simp [link, modTrap_length]

theorem isLeaf_link (i : Nat) : isLeaf (link fs fv N a o) i = isLeaf N i := by
  cases o <;> simp [link, isLeaf_modTrap]

theorem inner_link (i : Nat) : inner (link fs fv N a o) i = inner N i := by
  cases o <;> simp [link, inner_modTrap]

theorem trapAt_link (ha : isLeaf N a = true) (ho : ∀ j, o = some j → isLeaf N j = true) (i : Nat) :
    trapAt (link fs fv N a o) i =
      if o = some i then (if i = a then fv (some a) (fs o (trapAt N i)) else fv (some a) (trapAt N i))
      else if i = a then fs o (trapAt N i) else trapAt N i := by
  cases o with
  | none =>
    simp only [link, trapAt_modTrap, ha, and_true]
    by_cases h : i = a
    · subst h; simp
    · simp [h]
  | some j =>
    have hj := ho j rfl
    simp only [link, trapAt_modTrap, isLeaf_modTrap, ha, hj, and_true, Option.some.injEq]
    by_cases h : i = j
    · subst h
      by_cases g : i = a
      · subst g; simp
      · simp [g]
    · have h' : ¬ j = i := fun q => h q.symm
      by_cases g : i = a
      · subst g; simp [h, h']
      · simp [g, h, h']

theorem trapAt_link_ne {i : Nat} (h : i ≠ a) (h' : o ≠ some i) : trapAt (link fs fv N a o) i = trapAt N i := by
  cases o with
  | none => simp only [link, trapAt_modTrap]; rw [if_neg (by tauto)]
  | some j =>
    have : i ≠ j := fun q => h' (by rw [q])
    simp only [link, trapAt_modTrap, isLeaf_modTrap]
    rw [if_neg (by tauto), if_neg (by tauto)]

theorem bare_link (h1 : Bare fs) (h2 : Bare fv) (i : Nat) :
    (trapAt (link fs fv N a o) i).bare = (trapAt N i).bare := by
  cases o with
  | none =>
    simp only [link, trapAt_modTrap]
    split
    · next h => rw [h1, h.1]
    · rfl
  | some j =>
    simp only [link, trapAt_modTrap, isLeaf_modTrap]
    split
    · next h =>
      rw [h2, h.1]
      split
      · next g => rw [h1, g.1]
      · rfl
    · split
      · next g => rw [h1, g.1]
      · rfl

theorem link_append_inner {n : Node} (hn : n.isInner = true) : link fs fv (N ++ [n]) a o = link fs fv N a o ++ [n] := by
  cases o <;> simp [link, modTrap_append_inner _ hn]
end link

/-! ### The guarded operations -/

theorem maybeUL {N : Nodes} {a : Nat} {o : Option Nat} (h : ∀ j, o = some j → isLeaf N j = true) :
    maybeSetAsUpperLeft N a o = .ok (linkUL N a o) := by
  cases o with
  | none => rfl
  | some j => simp only [maybeSetAsUpperLeft, getTrapezoid, h j rfl, if_true, bind, Except.bind]; rfl

theorem maybeUR {N : Nodes} {a : Nat} {o : Option Nat} (h : ∀ j, o = some j → isLeaf N j = true) :
    maybeSetAsUpperRight N a o = .ok (linkUR N a o) := by
  cases o with
  | none => rfl
  | some j => simp only [maybeSetAsUpperRight, getTrapezoid, h j rfl, if_true, bind, Except.bind]; rfl

theorem maybeLL {N : Nodes} {a : Nat} {o : Option Nat} (h : ∀ j, o = some j → isLeaf N j = true) :
    maybeSetAsLowerLeft N a o = .ok (linkLL N a o) := by
  cases o with
  | none => rfl
  | some j => simp only [maybeSetAsLowerLeft, getTrapezoid, h j rfl, if_true, bind, Except.bind]; rfl

theorem maybeLR {N : Nodes} {a : Nat} {o : Option Nat} (h : ∀ j, o = some j → isLeaf N j = true) :
    maybeSetAsLowerRight N a o = .ok (linkLR N a o) := by
  cases o with
  | none => rfl
  | some j => simp only [maybeSetAsLowerRight, getTrapezoid, h j rfl, if_true, bind, Except.bind]; rfl

theorem maybeUL_ok {N N' : Nodes} {a : Nat} {o : Option Nat} (h : maybeSetAsUpperLeft N a o = .ok N') :
    N' = linkUL N a o := by
  cases o with
  | none => cases h; rfl
  | some j =>
    simp only [maybeSetAsUpperLeft, getTrapezoid, bind, Except.bind] at h
    split at h
    · simp at h
    · next hh => split at hh <;> simp at hh; cases h; subst hh; rfl

theorem maybeUR_ok {N N' : Nodes} {a : Nat} {o : Option Nat} (h : maybeSetAsUpperRight N a o = .ok N') :
    N' = linkUR N a o := by
  cases o with
  | none => cases h; rfl
  | some j =>
    simp only [maybeSetAsUpperRight, getTrapezoid, bind, Except.bind] at h
    split at h
    · simp at h
    · next hh => split at hh <;> simp at hh; cases h; subst hh; rfl

theorem maybeLL_ok {N N' : Nodes} {a : Nat} {o : Option Nat} (h : maybeSetAsLowerLeft N a o = .ok N') :
    N' = linkLL N a o := by
  cases o with
  | none => cases h; rfl
  | some j =>
    simp only [maybeSetAsLowerLeft, getTrapezoid, bind, Except.bind] at h
    split at h
    · simp at h
    · next hh => split at hh <;> simp at hh; cases h; subst hh; rfl

theorem maybeLR_ok {N N' : Nodes} {a : Nat} {o : Option Nat} (h : maybeSetAsLowerRight N a o = .ok N') :
    N' = linkLR N a o := by
  cases o with
  | none => cases h; rfl
  | some j =>
    simp only [maybeSetAsLowerRight, getTrapezoid, bind, Except.bind] at h
    split at h
    · simp at h
    · next hh => split at hh <;> simp at hh; cases h; subst hh; rfl

theorem bind_ok {α β : Type} {x : Except Err α} {f : α → Except Err β} {r : β} (h : (x >>= f) = .ok r) :
    ∃ v, x = .ok v ∧ f v = .ok r := by
  cases x with
  | error e => simp [bind, Except.bind] at h
  | ok v => exact ⟨v, rfl, h⟩

/-- The trapezoid made by `createTrapezoid`. -/
def mkTrap (edges : List Edge) (left right below above : Nat) : Trap :=
  ⟨(edgeAt edges below).interiorToLeft && !(edgeAt edges above).interiorToLeft, left, right, below, above,
    none, none, none, none⟩

/-- `attachLeft` in closed form, on the nodes before the pending one, and the pending node. -/
def attL (edges : List Edge) (endpoints : List Point) (M : Nodes) (pend : Node) (e a b : Nat) (T : Trap)
    (ul ll : Option Nat) : Nodes × Node :=
  if pt endpoints (edgeAt edges e).left = pt endpoints T.left then
    (linkLL (linkUL M a ul) b ll, pend)
  else
    (linkUR (linkLR (linkUL (linkLL
      (M ++ [pend] ++ [.leaf (mkTrap edges T.left (edgeAt edges e).left T.below T.above)])
      (M.length + 1) ll) (M.length + 1) ul) (M.length + 1) (some b)) (M.length + 1) (some a),
      .x (edgeAt edges e).left (M.length + 1) M.length)

/-- `attachRight` in closed form. -/
def attR (edges : List Edge) (endpoints : List Point) (M : Nodes) (pend : Node) (e a b : Nat) (T : Trap)
    (ur lr : Option Nat) : Nodes × Node :=
  if pt endpoints (edgeAt edges e).right = pt endpoints T.right then
    (linkLR (linkUR M a ur) b lr, pend)
  else
    (linkUL (linkLL (linkUR (linkLR
      (M ++ [pend] ++ [.leaf (mkTrap edges (edgeAt edges e).right T.right T.below T.above)])
      (M.length + 1) lr) (M.length + 1) ur) (M.length + 1) (some b)) (M.length + 1) (some a),
      .x (edgeAt edges e).right M.length (M.length + 1))

theorem attachLeft_ok {edges : List Edge} {endpoints : List Point} {M : Nodes} {pend : Node} {e t a b : Nat}
    {r : Nodes × Nat} (hp : pend.isInner = true)
    (h : attachLeft edges endpoints (M ++ [pend]) e t a b M.length = .ok r) :
    ∃ ul ll, r = ((attL edges endpoints M pend e a b (trapAt M t) ul ll).1 ++
      [(attL edges endpoints M pend e a b (trapAt M t) ul ll).2],
      (attL edges endpoints M pend e a b (trapAt M t) ul ll).1.length) := by
  unfold attachLeft at h
  simp only [trapAt_append_inner _ hp] at h
  unfold attL
  by_cases hc : pt endpoints (edgeAt edges e).left = pt endpoints (trapAt M t).left
  · rw [if_pos hc] at h
    simp only [if_pos hc]
    obtain ⟨N1, h1, h⟩ := bind_ok h
    obtain ⟨N2, h2, h⟩ := bind_ok h
    cases h
    have g1 := maybeUL_ok h1
    have g2 := maybeLL_ok h2
    refine ⟨(trapAt M t).upperLeft, (trapAt N1 t).lowerLeft, ?_⟩
    rw [g2, g1, link_append_inner hp, link_append_inner hp]
    simp only [link_length]
  · rw [if_neg hc] at h
    simp only [if_neg hc]
    simp only [createTrapezoid] at h
    obtain ⟨N1, h1, h⟩ := bind_ok h
    obtain ⟨N2, h2, h⟩ := bind_ok h
    cases h
    have g1 := maybeLL_ok h1
    have g2 := maybeUL_ok h2
    refine ⟨(trapAt N1 t).upperLeft, (trapAt (M ++ [pend] ++ [.leaf (mkTrap edges (trapAt M t).left
      (edgeAt edges e).left (trapAt M t).below (trapAt M t).above)]) t).lowerLeft, ?_⟩
    subst g1
    subst g2
    simp only [createXNode]
    simp only [List.length_append, List.length_cons, List.length_nil]
    rfl

theorem attachRight_ok {edges : List Edge} {endpoints : List Point} {M : Nodes} {pend : Node} {e t a b : Nat}
    {r : Nodes × Nat} (hp : pend.isInner = true)
    (h : attachRight edges endpoints (M ++ [pend]) e t a b M.length = .ok r) :
    ∃ ur lr, r = ((attR edges endpoints M pend e a b (trapAt M t) ur lr).1 ++
      [(attR edges endpoints M pend e a b (trapAt M t) ur lr).2],
      (attR edges endpoints M pend e a b (trapAt M t) ur lr).1.length) := by
  unfold attachRight at h
  simp only [trapAt_append_inner _ hp] at h
  unfold attR
  by_cases hc : pt endpoints (edgeAt edges e).right = pt endpoints (trapAt M t).right
  · rw [if_pos hc] at h
    simp only [if_pos hc]
    obtain ⟨N1, h1, h⟩ := bind_ok h
    obtain ⟨N2, h2, h⟩ := bind_ok h
    cases h
    have g1 := maybeUR_ok h1
    have g2 := maybeLR_ok h2
    refine ⟨(trapAt M t).upperRight, (trapAt N1 t).lowerRight, ?_⟩
    rw [g2, g1, link_append_inner hp, link_append_inner hp]
    simp only [link_length]
  · rw [if_neg hc] at h
    simp only [if_neg hc]
    simp only [createTrapezoid] at h
    obtain ⟨N1, h1, h⟩ := bind_ok h
    obtain ⟨N2, h2, h⟩ := bind_ok h
    cases h
    have g1 := maybeLR_ok h1
    have g2 := maybeUR_ok h2
    refine ⟨(trapAt N1 t).upperRight, (trapAt (M ++ [pend] ++ [.leaf (mkTrap edges (edgeAt edges e).right
      (trapAt M t).right (trapAt M t).below (trapAt M t).above)]) t).lowerRight, ?_⟩
    subst g1
    subst g2
    simp only [createXNode]
    simp only [List.length_append, List.length_cons, List.length_nil]
    rfl

/-- The links of a trapezoid are leaves other than the one given. -/
def LinksOk (N : Nodes) (t : Nat) (T : Trap) : Prop :=
  ∀ o ∈ [T.upperLeft, T.lowerLeft, T.upperRight, T.lowerRight], ∀ j, o = some j → isLeaf N j = true ∧ j ≠ t

theorem LinksOk.mono {N N' : Nodes} {t : Nat} {T : Trap} (h : LinksOk N t T)
    (hl : ∀ i, isLeaf N i = true → isLeaf N' i = true) : LinksOk N' t T :=
  fun o ho j hj => ⟨hl j (h o ho j hj).1, (h o ho j hj).2⟩

theorem LinksOk.ul {N : Nodes} {t : Nat} {T : Trap} (h : LinksOk N t T) {j : Nat} (hj : T.upperLeft = some j) :
    isLeaf N j = true ∧ j ≠ t := h _ (by simp) j hj
theorem LinksOk.ll {N : Nodes} {t : Nat} {T : Trap} (h : LinksOk N t T) {j : Nat} (hj : T.lowerLeft = some j) :
    isLeaf N j = true ∧ j ≠ t := h _ (by simp) j hj
theorem LinksOk.ur {N : Nodes} {t : Nat} {T : Trap} (h : LinksOk N t T) {j : Nat} (hj : T.upperRight = some j) :
    isLeaf N j = true ∧ j ≠ t := h _ (by simp) j hj
theorem LinksOk.lr {N : Nodes} {t : Nat} {T : Trap} (h : LinksOk N t T) {j : Nat} (hj : T.lowerRight = some j) :
    isLeaf N j = true ∧ j ≠ t := h _ (by simp) j hj

theorem attachLeft_total {edges : List Edge} {endpoints : List Point} {M : Nodes} {pend : Node} {e t a b : Nat}
    {T : Trap} (hp : pend.isInner = true) (hT : trapAt M t = T) (ht : isLeaf M t = true) (hL : LinksOk M t T)
    (hat : a ≠ t) (hbt : b ≠ t) :
    attachLeft edges endpoints (M ++ [pend]) e t a b M.length =
      .ok ((attL edges endpoints M pend e a b T T.upperLeft T.lowerLeft).1 ++
      [(attL edges endpoints M pend e a b T T.upperLeft T.lowerLeft).2],
      (attL edges endpoints M pend e a b T T.upperLeft T.lowerLeft).1.length) := by
  have htl := isLeaf_lt ht
  unfold attachLeft attL
  simp only [trapAt_append_inner _ hp, hT]
  by_cases hc : pt endpoints (edgeAt edges e).left = pt endpoints T.left
  · rw [if_pos hc, if_pos hc]
    rw [maybeUL (fun j hj => by rw [isLeaf_append_inner _ hp]; exact (hL.ul hj).1)]
    simp only [bind, Except.bind]
    have h1 : trapAt (linkUL (M ++ [pend]) a T.upperLeft) t = T := by
      rw [trapAt_link_ne (fun q => hat q.symm) (fun q => (hL.ul q).2 rfl), trapAt_append_inner _ hp, hT]
    rw [h1, maybeLL (fun j hj => by rw [isLeaf_link, isLeaf_append_inner _ hp]; exact (hL.ll hj).1)]
    simp only [pure, Except.pure]
    rw [link_append_inner hp, link_append_inner hp]
    simp only [link_length]
  · rw [if_neg hc, if_neg hc]
    simp only [createTrapezoid, bind, Except.bind]
    have ht1 : t ≠ M.length + 1 := by omega
    have e1 : (M ++ [pend]).length = M.length + 1 := by simp
    have h0 : trapAt (M ++ [pend] ++ [.leaf (mkTrap edges T.left (edgeAt edges e).left T.below T.above)]) t = T := by
      rw [trapAt_append_leaf, if_neg (by rw [e1]; exact ht1), trapAt_append_inner _ hp, hT]
    have hlf : ∀ j, isLeaf M j = true →
        isLeaf (M ++ [pend] ++ [.leaf (mkTrap edges T.left (edgeAt edges e).left T.below T.above)]) j = true := by
      intro j hj
      rw [isLeaf_append_leaf, isLeaf_append_inner _ hp, hj]; simp
    rw [show (Node.leaf ⟨(edgeAt edges T.below).interiorToLeft && !(edgeAt edges T.above).interiorToLeft, T.left, (edgeAt edges e).left,
      T.below, T.above, none, none, none, none⟩) =
      .leaf (mkTrap edges T.left (edgeAt edges e).left T.below T.above) from rfl]
    rw [h0, maybeLL (fun j hj => hlf j (hL.ll hj).1)]
    simp only
    rw [e1]
    rw [trapAt_link_ne ht1 (fun q => (hL.ll q).2 rfl), h0,
      maybeUL (fun j hj => by rw [isLeaf_link]; exact hlf j (hL.ul hj).1)]
    simp only [createXNode, pure, Except.pure]
    rfl

theorem attachRight_total {edges : List Edge} {endpoints : List Point} {M : Nodes} {pend : Node} {e t a b : Nat}
    {T : Trap} (hp : pend.isInner = true) (hT : trapAt M t = T) (ht : isLeaf M t = true) (hL : LinksOk M t T)
    (hat : a ≠ t) (hbt : b ≠ t) :
    attachRight edges endpoints (M ++ [pend]) e t a b M.length =
      .ok ((attR edges endpoints M pend e a b T T.upperRight T.lowerRight).1 ++
      [(attR edges endpoints M pend e a b T T.upperRight T.lowerRight).2],
      (attR edges endpoints M pend e a b T T.upperRight T.lowerRight).1.length) := by
  have htl := isLeaf_lt ht
  unfold attachRight attR
  simp only [trapAt_append_inner _ hp, hT]
  by_cases hc : pt endpoints (edgeAt edges e).right = pt endpoints T.right
  · rw [if_pos hc, if_pos hc]
    rw [maybeUR (fun j hj => by rw [isLeaf_append_inner _ hp]; exact (hL.ur hj).1)]
    simp only [bind, Except.bind]
    have h1 : trapAt (linkUR (M ++ [pend]) a T.upperRight) t = T := by
      rw [trapAt_link_ne (fun q => hat q.symm) (fun q => (hL.ur q).2 rfl), trapAt_append_inner _ hp, hT]
    rw [h1, maybeLR (fun j hj => by rw [isLeaf_link, isLeaf_append_inner _ hp]; exact (hL.lr hj).1)]
    simp only [pure, Except.pure]
    rw [link_append_inner hp, link_append_inner hp]
    simp only [link_length]
  · rw [if_neg hc, if_neg hc]
    simp only [createTrapezoid, bind, Except.bind]
    have ht1 : t ≠ M.length + 1 := by omega
    have e1 : (M ++ [pend]).length = M.length + 1 := by simp
    have h0 : trapAt (M ++ [pend] ++ [.leaf (mkTrap edges (edgeAt edges e).right T.right T.below T.above)]) t = T := by
      rw [trapAt_append_leaf, if_neg (by rw [e1]; exact ht1), trapAt_append_inner _ hp, hT]
    have hlf : ∀ j, isLeaf M j = true →
        isLeaf (M ++ [pend] ++ [.leaf (mkTrap edges (edgeAt edges e).right T.right T.below T.above)]) j = true := by
      intro j hj
      rw [isLeaf_append_leaf, isLeaf_append_inner _ hp, hj]; simp
    rw [show (Node.leaf ⟨(edgeAt edges T.below).interiorToLeft && !(edgeAt edges T.above).interiorToLeft, (edgeAt edges e).right, T.right,
      T.below, T.above, none, none, none, none⟩) =
      .leaf (mkTrap edges (edgeAt edges e).right T.right T.below T.above) from rfl]
    rw [h0, maybeLR (fun j hj => hlf j (hL.lr hj).1)]
    simp only
    rw [e1]
    rw [trapAt_link_ne ht1 (fun q => (hL.lr q).2 rfl), h0,
      maybeUR (fun j hj => by rw [isLeaf_link]; exact hlf j (hL.ur hj).1)]
    simp only [createXNode, pure, Except.pure]
    rfl

end Rene.Seidel
