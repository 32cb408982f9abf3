import Verif.Lemmas.Seidel.Links

namespace Rene.Seidel
open Rene Spec

section att
variable {edges : List Edge} {endpoints : List Point} {M : Nodes} {pend : Node} {e a b : Nat} {T : Trap}
  {o1 o2 : Option Nat}

/-- The fields of the links after `attachRight`. -/
theorem attR_links (hp : pend.isInner = true) (ha : isLeaf M a = true) (hb : isLeaf M b = true)
    (h1 : ∀ j, o1 = some j → isLeaf M j = true) (h2 : ∀ j, o2 = some j → isLeaf M j = true) (i : Nat) :
    (pt endpoints (edgeAt edges e).right = pt endpoints T.right →
      (trapAt (attR edges endpoints M pend e a b T o1 o2).1 i).upperRight =
        (if i = a then o1 else (trapAt M i).upperRight) ∧
      (trapAt (attR edges endpoints M pend e a b T o1 o2).1 i).upperLeft =
        (if o1 = some i then some a else (trapAt M i).upperLeft) ∧
      (trapAt (attR edges endpoints M pend e a b T o1 o2).1 i).lowerRight =
        (if i = b then o2 else (trapAt M i).lowerRight) ∧
      (trapAt (attR edges endpoints M pend e a b T o1 o2).1 i).lowerLeft =
        (if o2 = some i then some b else (trapAt M i).lowerLeft)) ∧
    (pt endpoints (edgeAt edges e).right ≠ pt endpoints T.right →
      (trapAt (attR edges endpoints M pend e a b T o1 o2).1 i).upperRight =
        (if i = a then some (M.length + 1) else if i = M.length + 1 then o1 else (trapAt M i).upperRight) ∧
      (trapAt (attR edges endpoints M pend e a b T o1 o2).1 i).upperLeft =
        (if i = M.length + 1 then some a else if o1 = some i then some (M.length + 1) else (trapAt M i).upperLeft) ∧
      (trapAt (attR edges endpoints M pend e a b T o1 o2).1 i).lowerRight =
        (if i = b then some (M.length + 1) else if i = M.length + 1 then o2 else (trapAt M i).lowerRight) ∧
      (trapAt (attR edges endpoints M pend e a b T o1 o2).1 i).lowerLeft =
        (if i = M.length + 1 then some b else if o2 = some i then some (M.length + 1) else (trapAt M i).lowerLeft)) := by
  have la := isLeaf_lt ha
  have lb := isLeaf_lt hb
  have l1 : ∀ j, o1 = some j → j < M.length := fun j hj => isLeaf_lt (h1 j hj)
  have l2 : ∀ j, o2 = some j → j < M.length := fun j hj => isLeaf_lt (h2 j hj)
  unfold attR
  constructor
  · intro hc
    rw [if_pos hc]
    simp only [ur_linkUR, ur_linkLR, ul_linkUR, ul_linkLR, lr_linkUR, lr_linkLR, ll_linkUR, ll_linkLR, isLeaf_link, ha, hb, and_true]
    refine ⟨trivial, ?_, trivial, ?_⟩ <;> grind
  · intro hc
    rw [if_neg hc]
    simp only [ur_linkUR, ur_linkLR, ul_linkUR, ul_linkLR, lr_linkUR, lr_linkLR, ll_linkUR, ll_linkLR,
      ur_linkUL, ur_linkLL, ul_linkUL, ul_linkLL, lr_linkUL, lr_linkLL, ll_linkUL, ll_linkLL, isLeaf_link,
      isLeaf_append_leaf, isLeaf_append_inner _ hp, trapAt_append_leaf, trapAt_append_inner _ hp, List.length_append,
      List.length_cons, List.length_nil, mkTrap]
    refine ⟨?_, ?_, ?_, ?_⟩ <;> grind

/-- The fields of the links after `attachLeft`. -/
theorem attL_links (hp : pend.isInner = true) (ha : isLeaf M a = true) (hb : isLeaf M b = true)
    (h1 : ∀ j, o1 = some j → isLeaf M j = true) (h2 : ∀ j, o2 = some j → isLeaf M j = true) (i : Nat) :
    (pt endpoints (edgeAt edges e).left = pt endpoints T.left →
      (trapAt (attL edges endpoints M pend e a b T o1 o2).1 i).upperLeft =
        (if i = a then o1 else (trapAt M i).upperLeft) ∧
      (trapAt (attL edges endpoints M pend e a b T o1 o2).1 i).upperRight =
        (if o1 = some i then some a else (trapAt M i).upperRight) ∧
      (trapAt (attL edges endpoints M pend e a b T o1 o2).1 i).lowerLeft =
        (if i = b then o2 else (trapAt M i).lowerLeft) ∧
      (trapAt (attL edges endpoints M pend e a b T o1 o2).1 i).lowerRight =
        (if o2 = some i then some b else (trapAt M i).lowerRight)) ∧
    (pt endpoints (edgeAt edges e).left ≠ pt endpoints T.left →
      (trapAt (attL edges endpoints M pend e a b T o1 o2).1 i).upperLeft =
        (if i = a then some (M.length + 1) else if i = M.length + 1 then o1 else (trapAt M i).upperLeft) ∧
      (trapAt (attL edges endpoints M pend e a b T o1 o2).1 i).upperRight =
        (if i = M.length + 1 then some a else if o1 = some i then some (M.length + 1) else (trapAt M i).upperRight) ∧
      (trapAt (attL edges endpoints M pend e a b T o1 o2).1 i).lowerLeft =
        (if i = b then some (M.length + 1) else if i = M.length + 1 then o2 else (trapAt M i).lowerLeft) ∧
      (trapAt (attL edges endpoints M pend e a b T o1 o2).1 i).lowerRight =
        (if i = M.length + 1 then some b else if o2 = some i then some (M.length + 1) else (trapAt M i).lowerRight)) := by
  have la := isLeaf_lt ha
  have lb := isLeaf_lt hb
  have l1 : ∀ j, o1 = some j → j < M.length := fun j hj => isLeaf_lt (h1 j hj)
  have l2 : ∀ j, o2 = some j → j < M.length := fun j hj => isLeaf_lt (h2 j hj)
  unfold attL
  constructor
  · intro hc
    rw [if_pos hc]
    simp only [ur_linkUL, ur_linkLL, ul_linkUL, ul_linkLL, lr_linkUL, lr_linkLL, ll_linkUL, ll_linkLL, isLeaf_link, ha, hb, and_true]
    refine ⟨trivial, ?_, trivial, ?_⟩ <;> grind
  · intro hc
    rw [if_neg hc]
    simp only [ur_linkUR, ur_linkLR, ul_linkUR, ul_linkLR, lr_linkUR, lr_linkLR, ll_linkUR, ll_linkLR,
      ur_linkUL, ur_linkLL, ul_linkUL, ul_linkLL, lr_linkUL, lr_linkLL, ll_linkUL, ll_linkLL, isLeaf_link,
      isLeaf_append_leaf, isLeaf_append_inner _ hp, trapAt_append_leaf, trapAt_append_inner _ hp, List.length_append,
      List.length_cons, List.length_nil, mkTrap]
    refine ⟨?_, ?_, ?_, ?_⟩ <;> grind
end att

section ext
variable {edges : List Edge} {nodes : Nodes} {e t prev right : Nat} {o : Option Nat}

theorem extA_links (hp : isLeaf nodes prev = true) (h1 : ∀ j, o = some j → isLeaf nodes j = true) (i : Nat) :
    ((trapAt nodes prev).above = (trapAt nodes t).above →
      (trapAt (extA edges nodes e t prev right o).1 i).upperRight = (trapAt nodes i).upperRight ∧
      (trapAt (extA edges nodes e t prev right o).1 i).upperLeft = (trapAt nodes i).upperLeft ∧
      (trapAt (extA edges nodes e t prev right o).1 i).lowerRight = (trapAt nodes i).lowerRight ∧
      (trapAt (extA edges nodes e t prev right o).1 i).lowerLeft = (trapAt nodes i).lowerLeft) ∧
    ((trapAt nodes prev).above ≠ (trapAt nodes t).above →
      (trapAt (extA edges nodes e t prev right o).1 i).upperRight =
        (if i = nodes.length then none else if o = some i then some nodes.length else (trapAt nodes i).upperRight) ∧
      (trapAt (extA edges nodes e t prev right o).1 i).upperLeft =
        (if i = nodes.length then o else (trapAt nodes i).upperLeft) ∧
      (trapAt (extA edges nodes e t prev right o).1 i).lowerRight =
        (if i = nodes.length then none else if i = prev then some nodes.length else (trapAt nodes i).lowerRight) ∧
      (trapAt (extA edges nodes e t prev right o).1 i).lowerLeft =
        (if i = nodes.length then some prev else (trapAt nodes i).lowerLeft)) := by
  have la := isLeaf_lt hp
  have l1 : ∀ j, o = some j → j < nodes.length := fun j hj => isLeaf_lt (h1 j hj)
  unfold extA
  constructor
  · intro hc
    rw [if_pos hc]
    simp only [trapAt_modTrap]
    by_cases h : i = prev ∧ isLeaf nodes prev = true
    · obtain ⟨rfl, h⟩ := h; simp [h]
    · simp [h]
  · intro hc
    rw [if_neg hc]
    simp only [ur_linkUL, ur_linkLL, ul_linkUL, ul_linkLL, lr_linkUL, lr_linkLL, ll_linkUL, ll_linkLL, isLeaf_link,
      isLeaf_append_leaf, trapAt_append_leaf, mkTrap]
    refine ⟨?_, ?_, ?_, ?_⟩ <;> grind

theorem extB_links (hp : isLeaf nodes prev = true) (h1 : ∀ j, o = some j → isLeaf nodes j = true) (i : Nat) :
    ((trapAt nodes prev).below = (trapAt nodes t).below →
      (trapAt (extB edges nodes e t prev right o).1 i).upperRight = (trapAt nodes i).upperRight ∧
      (trapAt (extB edges nodes e t prev right o).1 i).upperLeft = (trapAt nodes i).upperLeft ∧
      (trapAt (extB edges nodes e t prev right o).1 i).lowerRight = (trapAt nodes i).lowerRight ∧
      (trapAt (extB edges nodes e t prev right o).1 i).lowerLeft = (trapAt nodes i).lowerLeft) ∧
    ((trapAt nodes prev).below ≠ (trapAt nodes t).below →
      (trapAt (extB edges nodes e t prev right o).1 i).lowerRight =
        (if i = nodes.length then none else if o = some i then some nodes.length else (trapAt nodes i).lowerRight) ∧
      (trapAt (extB edges nodes e t prev right o).1 i).lowerLeft =
        (if i = nodes.length then o else (trapAt nodes i).lowerLeft) ∧
      (trapAt (extB edges nodes e t prev right o).1 i).upperRight =
        (if i = nodes.length then none else if i = prev then some nodes.length else (trapAt nodes i).upperRight) ∧
      (trapAt (extB edges nodes e t prev right o).1 i).upperLeft =
        (if i = nodes.length then some prev else (trapAt nodes i).upperLeft)) := by
  have la := isLeaf_lt hp
  have l1 : ∀ j, o = some j → j < nodes.length := fun j hj => isLeaf_lt (h1 j hj)
  unfold extB
  constructor
  · intro hc
    rw [if_pos hc]
    simp only [trapAt_modTrap]
    by_cases h : i = prev ∧ isLeaf nodes prev = true
    · obtain ⟨rfl, h⟩ := h; simp [h]
    · simp [h]
  · intro hc
    rw [if_neg hc]
    simp only [ur_linkUL, ur_linkLL, ul_linkUL, ul_linkLL, lr_linkUL, lr_linkLL, ll_linkUL, ll_linkLL, isLeaf_link,
      isLeaf_append_leaf, trapAt_append_leaf, mkTrap]
    refine ⟨?_, ?_, ?_, ?_⟩ <;> grind
end ext

end Rene.Seidel
