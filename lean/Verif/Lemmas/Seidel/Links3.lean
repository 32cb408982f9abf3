import Verif.Lemmas.Seidel.Links2

namespace Rene.Seidel
open Rene Spec

def Lf (N : Nodes) (i : ℕ) : Prop := isLeaf N i = true
def UR (N : Nodes) (i : ℕ) : Option ℕ := (trapAt N i).upperRight
def UL (N : Nodes) (i : ℕ) : Option ℕ := (trapAt N i).upperLeft
def LR (N : Nodes) (i : ℕ) : Option ℕ := (trapAt N i).lowerRight
def LL (N : Nodes) (i : ℕ) : Option ℕ := (trapAt N i).lowerLeft

section
variable {edges : List Edge} {endpoints : List Point} {nodes : Nodes} {e t : Nat}

set_option maxHeartbeats 4000000 in
theorem single_links (ht : isLeaf nodes t = true) (hl : LinksOk nodes t (trapAt nodes t)) {N : Nodes}
    {lo ro : Option ℕ}
    (hN : N = singleP edges endpoints nodes e t (trapAt nodes t).upperRight (trapAt nodes t).lowerRight
      (trapAt nodes t).upperLeft (trapAt nodes t).lowerLeft)
    (hlo : lo = (if pt endpoints (edgeAt edges e).left = pt endpoints (trapAt nodes t).left then none
        else if pt endpoints (edgeAt edges e).right = pt endpoints (trapAt nodes t).right then some (nodes.length + 3)
        else some (nodes.length + 5)))
    (hro : ro = (if pt endpoints (edgeAt edges e).right = pt endpoints (trapAt nodes t).right then none
        else some (nodes.length + 3))) :
    LinkStep (Lf nodes) (Lf N) (UR nodes) (UL nodes) (UR N) (UL N) t nodes.length (nodes.length + 1) lo ro none ∧
    LinkStep (Lf nodes) (Lf N) (LR nodes) (LL nodes) (LR N) (LL N) t (nodes.length + 1) nodes.length lo ro none := by
  have htl := isLeaf_lt ht
  have hout : ∀ i, isLeaf nodes i = true → i < nodes.length := fun i => isLeaf_lt
  set n := nodes.length with hn
  set T := trapAt nodes t with hT
  have hp : (Node.y e (n + 1) n).isInner = true := rfl
  set M := twoTraps edges nodes e (edgeAt edges e).left (edgeAt edges e).right T with hM
  have lM : M.length = n + 2 := twoTraps_length
  have fM : ∀ i, isLeaf M i = _ := fun i => twoTraps_isLeaf i
  have u1 : ∀ j, T.upperRight = some j → isLeaf nodes j = true ∧ j ≠ t := fun j hj => hl.ur hj
  have u2 : ∀ j, T.lowerRight = some j → isLeaf nodes j = true ∧ j ≠ t := fun j hj => hl.lr hj
  have u3 : ∀ j, T.upperLeft = some j → isLeaf nodes j = true ∧ j ≠ t := fun j hj => hl.ul hj
  have u4 : ∀ j, T.lowerLeft = some j → isLeaf nodes j = true ∧ j ≠ t := fun j hj => hl.ll hj
  set R := attR edges endpoints M (.y e (n + 1) n) e n (n + 1) T T.upperRight T.lowerRight with hR
  have hpR : R.2.isInner = true := attR_pend_inner hp
  have fR : ∀ i, isLeaf R.1 i = _ := fun i => attR_isLeaf hp i
  have lR : R.1.length = if pt endpoints (edgeAt edges e).right = pt endpoints T.right then n + 2 else n + 4 := by
    rw [hR, attR_length, lM]
  have kR := fun i => attR_links (edges := edges) (endpoints := endpoints) (e := e) (T := T) (M := M) (pend := .y e (n + 1) n) (a := n) (b := n + 1) (o1 := T.upperRight) (o2 := T.lowerRight) hp
    (by rw [fM]; simp [hn]) (by rw [fM]; simp [hn]) (fun j hj => by rw [fM]; simp [(u1 j hj).1])
    (fun j hj => by rw [fM]; simp [(u2 j hj).1]) i
  have mR : ∀ i, isLeaf M i = true → isLeaf R.1 i = true := fun i h => by rw [fR]; split <;> simp [h]
  set L := attL edges endpoints R.1 R.2 e n (n + 1) T T.upperLeft T.lowerLeft with hL
  have hpL : L.2.isInner = true := attL_pend_inner hpR
  have kL := fun i => attL_links (edges := edges) (endpoints := endpoints) (e := e) (T := T) (M := R.1) (pend := R.2) (a := n) (b := n + 1) (o1 := T.upperLeft) (o2 := T.lowerLeft) hpR
    (mR _ (by rw [fM]; simp [hn])) (mR _ (by rw [fM]; simp [hn])) (fun j hj => mR _ (by rw [fM]; simp [(u3 j hj).1]))
    (fun j hj => mR _ (by rw [fM]; simp [(u4 j hj).1])) i
  rw [← hR] at kR
  rw [← hL] at kL
  have bM : ∀ i, trapAt M i = _ := fun i => twoTraps_trapAt i
  have hS : N = L.1.set t L.2 := hN
  have bS : ∀ i, i ≠ t → trapAt N i = trapAt L.1 i := fun i h => by rw [hS]; exact trapAt_set _ hpL t i h
  simp only [bM, lM] at kR
  simp only [apply_ite Trap.upperRight, apply_ite Trap.upperLeft, apply_ite Trap.lowerRight, apply_ite Trap.lowerLeft, mkTrap] at kR
  clear_value L R M
  clear hL hR hM hS hN fM fR mR bM hl
  unfold UR UL LR LL Lf
  by_cases h1 : pt endpoints (edgeAt edges e).left = pt endpoints T.left <;>
  by_cases h2 : pt endpoints (edgeAt edges e).right = pt endpoints T.right
  all_goals
    simp only [h1, h2, if_true, if_false, ne_eq, not_true_eq_false, not_false_eq_true, true_implies, false_implies, true_and, and_true] at lR kL kR hlo hro
    try simp only [lR] at kL
    subst hlo hro
    have k := fun i (hi : i ≠ t) => bS i hi
    constructor
    · constructor <;> grind
    · constructor <;> grind
set_option maxHeartbeats 4000000 in
theorem first_links (ht : isLeaf nodes t = true) (hl : LinksOk nodes t (trapAt nodes t)) {N : Nodes}
    {lo : Option ℕ}
    (hN : N = firstP edges endpoints nodes e t (trapAt nodes t).upperRight (trapAt nodes t).lowerRight
      (trapAt nodes t).upperLeft (trapAt nodes t).lowerLeft)
    (hlo : lo = (if pt endpoints (edgeAt edges e).left = pt endpoints (trapAt nodes t).left then none
        else some (nodes.length + 3))) :
    LinkStep (Lf nodes) (Lf N) (UR nodes) (UL nodes) (UR N) (UL N) t nodes.length (nodes.length + 1) lo none none ∧
    LinkStep (Lf nodes) (Lf N) (LR nodes) (LL nodes) (LR N) (LL N) t (nodes.length + 1) nodes.length lo none none := by
  have htl := isLeaf_lt ht
  have hout : ∀ i, isLeaf nodes i = true → i < nodes.length := fun i => isLeaf_lt
  set n := nodes.length with hn
  set T := trapAt nodes t with hT
  have hp : (Node.y e (n + 1) n).isInner = true := rfl
  set M := twoTraps edges nodes e (edgeAt edges e).left T.right T with hM
  have lM : M.length = n + 2 := twoTraps_length
  have fM : ∀ i, isLeaf M i = _ := fun i => twoTraps_isLeaf i
  have u1 : ∀ j, T.upperRight = some j → isLeaf nodes j = true ∧ j ≠ t := fun j hj => hl.ur hj
  have u2 : ∀ j, T.lowerRight = some j → isLeaf nodes j = true ∧ j ≠ t := fun j hj => hl.lr hj
  have u3 : ∀ j, T.upperLeft = some j → isLeaf nodes j = true ∧ j ≠ t := fun j hj => hl.ul hj
  have u4 : ∀ j, T.lowerLeft = some j → isLeaf nodes j = true ∧ j ≠ t := fun j hj => hl.ll hj
  set L := attL edges endpoints M (.y e (n + 1) n) e n (n + 1) T T.upperLeft T.lowerLeft with hL
  have hpL : L.2.isInner = true := attL_pend_inner hp
  have fL : ∀ i, isLeaf L.1 i = _ := fun i => attL_isLeaf hp i
  have kL := fun i => attL_links (edges := edges) (endpoints := endpoints) (e := e) (T := T) (M := M) (pend := .y e (n + 1) n) (a := n) (b := n + 1) (o1 := T.upperLeft) (o2 := T.lowerLeft) hp
    (by rw [fM]; simp [hn]) (by rw [fM]; simp [hn]) (fun j hj => by rw [fM]; simp [(u3 j hj).1])
    (fun j hj => by rw [fM]; simp [(u4 j hj).1]) i
  have mL : ∀ i, isLeaf M i = true → isLeaf L.1 i = true := fun i h => by rw [fL]; split <;> simp [h]
  rw [← hL] at kL
  have bM : ∀ i, trapAt M i = _ := fun i => twoTraps_trapAt i
  have ln : isLeaf L.1 n = true := mL _ (by rw [fM]; simp [hn])
  have ln1 : isLeaf L.1 (n + 1) = true := mL _ (by rw [fM]; simp [hn])
  have w1 : ∀ j, T.upperRight = some j → isLeaf L.1 j = true := fun j hj => mL _ (by rw [fM]; simp [(u1 j hj).1])
  have w2 : ∀ j, T.lowerRight = some j → isLeaf L.1 j = true := fun j hj => mL _ (by rw [fM]; simp [(u2 j hj).1])
  set Q := linkLR (linkUR L.1 n T.upperRight) (n + 1) T.lowerRight with hQ
  have hS : N = Q.set t L.2 := hN
  have bS : ∀ i, i ≠ t → trapAt N i = trapAt Q i := fun i h => by rw [hS]; exact trapAt_set _ hpL t i h
  have kQ : ∀ i, (trapAt Q i).upperRight = (if i = n then T.upperRight else (trapAt L.1 i).upperRight) ∧
      (trapAt Q i).upperLeft = (if T.upperRight = some i then some n else (trapAt L.1 i).upperLeft) ∧
      (trapAt Q i).lowerRight = (if i = n + 1 then T.lowerRight else (trapAt L.1 i).lowerRight) ∧
      (trapAt Q i).lowerLeft = (if T.lowerRight = some i then some (n + 1) else (trapAt L.1 i).lowerLeft) := by
    intro i
    rw [hQ]
    simp only [ur_linkUR, ur_linkLR, ul_linkUR, ul_linkLR, lr_linkUR, lr_linkLR, ll_linkUR, ll_linkLR, isLeaf_link]
    refine ⟨?_, ?_, ?_, ?_⟩ <;> grind
  simp only [bM, lM] at kL
  simp only [apply_ite Trap.upperRight, apply_ite Trap.upperLeft, apply_ite Trap.lowerRight, apply_ite Trap.lowerLeft, mkTrap] at kL
  clear_value L M Q
  clear hL hM hS hN fM fL mL bM hl hQ w1 w2
  unfold UR UL LR LL Lf
  by_cases h1 : pt endpoints (edgeAt edges e).left = pt endpoints T.left
  all_goals
    simp only [h1, if_true, if_false, ne_eq, not_true_eq_false, not_false_eq_true, true_implies, false_implies, true_and, and_true] at kL hlo
    subst hlo
    constructor
    · constructor <;> grind
    · constructor <;> grind

variable {pa pb right : ℕ}

set_option maxHeartbeats 4000000 in
/-- The links after `extAB`. -/
theorem extAB_links (ht : isLeaf nodes t = true) (ha : isLeaf nodes pa = true) (hb : isLeaf nodes pb = true)
    (hab : pa ≠ pb) (hl : LinksOk nodes t (trapAt nodes t)) {M : Nodes} {a b : ℕ}
    (hM : extAB edges nodes e t pa pb right (trapAt nodes t).upperLeft (trapAt nodes t).lowerLeft = (M, a, b)) :
    ∃ n' : ℕ, nodes.length ≤ n' ∧
    (a = if (trapAt nodes pa).above = (trapAt nodes t).above then pa else nodes.length) ∧
    (b = if (trapAt nodes pb).below = (trapAt nodes t).below then pb else n') ∧
    (n' = if (trapAt nodes pa).above = (trapAt nodes t).above then nodes.length else nodes.length + 1) ∧
    (M.length = if (trapAt nodes pb).below = (trapAt nodes t).below then n' else n' + 1) ∧
    (∀ i, isLeaf M i = true ↔ isLeaf nodes i = true ∨ i = a ∨ i = b) ∧
    (∀ i, (trapAt M i).upperRight = if i = nodes.length ∧ a = i then none else if i = n' ∧ b = i then none else
      if i = pb ∧ b = n' then some n' else if (trapAt nodes t).upperLeft = some i ∧ a = nodes.length then some nodes.length
        else (trapAt nodes i).upperRight) ∧
    (∀ i, (trapAt M i).upperLeft = if i = nodes.length ∧ a = i then (trapAt nodes t).upperLeft
      else if i = n' ∧ b = i then some pb else (trapAt nodes i).upperLeft) ∧
    (∀ i, (trapAt M i).lowerRight = if i = nodes.length ∧ a = i then none else if i = n' ∧ b = i then none else
      if (trapAt nodes t).lowerLeft = some i ∧ b = n' then some n' else if i = pa ∧ a = nodes.length then some nodes.length
        else (trapAt nodes i).lowerRight) ∧
    (∀ i, (trapAt M i).lowerLeft = if i = nodes.length ∧ a = i then some pa
      else if i = n' ∧ b = i then (trapAt nodes t).lowerLeft else (trapAt nodes i).lowerLeft) := by
  have htl := isLeaf_lt ht
  have hal := isLeaf_lt ha
  have hbl := isLeaf_lt hb
  have hout : ∀ i, isLeaf nodes i = true → i < nodes.length := fun i => isLeaf_lt
  set n := nodes.length with hn
  set T := trapAt nodes t with hT
  have u3 : ∀ j, T.upperLeft = some j → isLeaf nodes j = true := fun j hj => (hl.ul hj).1
  have u4 : ∀ j, T.lowerLeft = some j → isLeaf nodes j = true := fun j hj => (hl.ll hj).1
  unfold extAB at hM
  set A := extA edges nodes e t pa right T.upperLeft with hA
  set B := extB edges A.1 e t pb right T.lowerLeft with hB
  have fA : ∀ i, isLeaf A.1 i = _ := fun i => extA_isLeaf i
  have fB : ∀ i, isLeaf B.1 i = _ := fun i => extB_isLeaf i
  have lA : A.1.length = if (trapAt nodes pa).above = T.above then n else n + 1 := by rw [hA, extA_length]
  have lB : B.1.length = if (trapAt A.1 pb).below = (trapAt A.1 t).below then A.1.length else A.1.length + 1 := by rw [hB, extB_length]
  have sA : A.2 = if (trapAt nodes pa).above = T.above then pa else n := by rw [hA, extA_snd]
  have sB : B.2 = if (trapAt A.1 pb).below = (trapAt A.1 t).below then pb else A.1.length := by rw [hB, extB_snd]
  have bA : ∀ i, (trapAt A.1 i).bare = _ := fun i => extA_bare ha i
  have kA := fun i => extA_links (edges := edges) (e := e) (t := t) (right := right) (o := T.upperLeft) ha u3 i
  have mA : ∀ i, isLeaf nodes i = true → isLeaf A.1 i = true := fun i h => extA_leaf_mono h
  have kB := fun i => extB_links (edges := edges) (e := e) (t := t) (right := right) (o := T.lowerLeft) (mA _ hb) (fun j hj => mA _ (u4 j hj)) i
  have eb : ∀ i, i < n → (trapAt A.1 i).below = (trapAt nodes i).below := by
    intro i hi
    have := congrArg Trap.below (bA i)
    simp only [apply_ite Trap.below, Trap.bare] at this
    rw [this]
    split_ifs <;> first | rfl | omega | grind
  have e1 := eb pb hbl
  have e2 : (trapAt A.1 t).below = T.below := eb t htl
  simp only [Prod.mk.injEq] at hM
  obtain ⟨hM1, hM2, hM3⟩ := hM
  rw [← hB] at hM1 hM3
  rw [← hM1, ← hM2, ← hM3]
  rw [e1, e2] at lB sB
  simp only [e1, e2] at fB kB
  rw [← hA] at kA
  rw [← hB] at kB
  clear_value A B
  clear hA hB bA e1 e2 mA eb hM1 hM2 hM3
  refine ⟨A.1.length, by rw [lA]; split <;> omega, sA, sB, lA, lB, ?_, ?_, ?_, ?_, ?_⟩
  all_goals
    intro i
    replace kA := kA i
    replace kB := kB i
    replace fA := fA i
    replace fB := fB i
    by_cases h1 : (trapAt nodes pa).above = (trapAt nodes t).above <;>
    by_cases h2 : (trapAt nodes pb).below = (trapAt nodes t).below
    · replace kA := kA.1 h1
      replace kB := kB.1 h2
      rw [if_pos h1] at lA sA fA
      rw [if_pos h2] at lB sB fB
      grind
    · replace kA := kA.1 h1
      replace kB := kB.2 h2
      rw [if_pos h1] at lA sA fA
      rw [if_neg h2] at lB sB fB
      grind
    · replace kA := kA.2 h1
      replace kB := kB.1 h2
      rw [if_neg h1] at lA sA fA
      rw [if_pos h2] at lB sB fB
      grind
    · replace kA := kA.2 h1
      replace kB := kB.2 h2
      rw [if_neg h1] at lA sA fA
      rw [if_neg h2] at lB sB fB
      grind

end

end Rene.Seidel
