import Verif.Lemmas.Seidel.Links3

namespace Rene.Seidel
open Rene Spec

variable {edges : List Edge} {endpoints : List Point} {nodes : Nodes} {e t pa pb : Nat}

/-- What is known of the links of the trapezoid being split, when the previous parts are `pa` and `pb`. -/
structure MidLinks (nodes : Nodes) (t pa pb : ℕ) : Prop where
  ok : LinksOk nodes t (trapAt nodes t)
  ab : pa ≠ pb
  ula : (trapAt nodes pa).above = (trapAt nodes t).above → (trapAt nodes t).upperLeft = some pa
  llb : (trapAt nodes pb).below = (trapAt nodes t).below → (trapAt nodes t).lowerLeft = some pb
  ulb : (trapAt nodes t).upperLeft ≠ some pb
  lla : (trapAt nodes t).lowerLeft ≠ some pa
  ur : (trapAt nodes t).upperRight ≠ some pa ∧ (trapAt nodes t).upperRight ≠ some pb
  lr : (trapAt nodes t).lowerRight ≠ some pa ∧ (trapAt nodes t).lowerRight ≠ some pb

set_option maxHeartbeats 4000000 in
theorem middle_links (ht : isLeaf nodes t = true) (ha : isLeaf nodes pa = true) (hb : isLeaf nodes pb = true)
    (hat : pa ≠ t) (hbt : pb ≠ t) (m : MidLinks nodes t pa pb) {N : Nodes} {a b : ℕ}
    (hN : middleP edges nodes e t pa pb (trapAt nodes t).upperRight (trapAt nodes t).lowerRight
      (trapAt nodes t).upperLeft (trapAt nodes t).lowerLeft = (N, a, b)) :
    LinkStep (Lf nodes) (Lf N) (UR nodes) (UL nodes) (UR N) (UL N) t a b none none (some pb) ∧
    LinkStep (Lf nodes) (Lf N) (LR nodes) (LL nodes) (LR N) (LL N) t b a none none (some pa) := by
  have htl := isLeaf_lt ht
  have hal := isLeaf_lt ha
  have hbl := isLeaf_lt hb
  have hout : ∀ i, isLeaf nodes i = true → i < nodes.length := fun i => isLeaf_lt
  obtain ⟨hl, hab, ula, llb, ulb, lla, ur, lr⟩ := m
  rcases hM : extAB edges nodes e t pa pb (trapAt nodes t).right (trapAt nodes t).upperLeft (trapAt nodes t).lowerLeft
    with ⟨M, a', b'⟩
  unfold middleP at hN
  simp only [hM, Prod.mk.injEq] at hN
  obtain ⟨hN, rfl, rfl⟩ := hN
  obtain ⟨n', hn', ea, eb, en, lM, fM, k1, k2, k3, k4⟩ := extAB_links ht ha hb hab hl hM
  set T := trapAt nodes t with hT
  have u1 : ∀ j, T.upperRight = some j → isLeaf nodes j = true ∧ j ≠ t := fun j hj => hl.ur hj
  have u2 : ∀ j, T.lowerRight = some j → isLeaf nodes j = true ∧ j ≠ t := fun j hj => hl.lr hj
  have u3 : ∀ j, T.upperLeft = some j → isLeaf nodes j = true ∧ j ≠ t := fun j hj => hl.ul hj
  have u4 : ∀ j, T.lowerLeft = some j → isLeaf nodes j = true ∧ j ≠ t := fun j hj => hl.ll hj
  have la : isLeaf M a' = true := (fM a').mpr (by simp)
  have lb : isLeaf M b' = true := (fM b').mpr (by simp)
  have w1 : ∀ j, T.upperRight = some j → isLeaf M j = true := fun j hj => (fM j).mpr (Or.inl (u1 j hj).1)
  have w2 : ∀ j, T.lowerRight = some j → isLeaf M j = true := fun j hj => (fM j).mpr (Or.inl (u2 j hj).1)
  set Q := linkLR (linkUR M a' T.upperRight) b' T.lowerRight with hQ
  have bS : ∀ i, i ≠ t → trapAt N i = trapAt Q i := fun i h => by
    rw [← hN]; exact trapAt_set _ (n := .y e b' a') rfl t i h
  have kQ : ∀ i, (trapAt Q i).upperRight = (if i = a' then T.upperRight else (trapAt M i).upperRight) ∧
      (trapAt Q i).upperLeft = (if T.upperRight = some i then some a' else (trapAt M i).upperLeft) ∧
      (trapAt Q i).lowerRight = (if i = b' then T.lowerRight else (trapAt M i).lowerRight) ∧
      (trapAt Q i).lowerLeft = (if T.lowerRight = some i then some b' else (trapAt M i).lowerLeft) := by
    intro i
    rw [hQ]
    simp only [ur_linkUR, ur_linkLR, ul_linkUR, ul_linkLR, lr_linkUR, lr_linkLR, ll_linkUR, ll_linkLR, isLeaf_link]
    refine ⟨?_, ?_, ?_, ?_⟩ <;> grind
  clear_value Q
  clear hQ hM hN fM la lb w1 w2 hl lM
  unfold UR UL LR LL Lf
  by_cases h1 : (trapAt nodes pa).above = T.above <;>
  by_cases h2 : (trapAt nodes pb).below = T.below
  · rw [if_pos h1] at ea en
    rw [if_pos h2] at eb
    subst ea eb en
    refine ⟨?_, ?_⟩ <;> constructor <;> grind [Option.getD_none, Option.getD_some]
  · rw [if_pos h1] at ea en
    rw [if_neg h2] at eb
    subst ea eb en
    refine ⟨?_, ?_⟩ <;> constructor <;> grind [Option.getD_none, Option.getD_some]
  · rw [if_neg h1] at ea en
    rw [if_pos h2] at eb
    subst ea eb en
    refine ⟨?_, ?_⟩ <;> constructor <;> grind [Option.getD_none, Option.getD_some]
  · rw [if_neg h1] at ea en
    rw [if_neg h2] at eb
    subst ea eb en
    refine ⟨?_, ?_⟩ <;> constructor <;> grind [Option.getD_none, Option.getD_some]

set_option maxHeartbeats 4000000 in
theorem last_links (ht : isLeaf nodes t = true) (ha : isLeaf nodes pa = true) (hb : isLeaf nodes pb = true)
    (hat : pa ≠ t) (hbt : pb ≠ t) (m : MidLinks nodes t pa pb) {N : Nodes} {a b : ℕ} {ro : Option ℕ}
    (hro : ro = if pt endpoints (edgeAt edges e).right = pt endpoints (trapAt nodes t).right then none
      else some ((extAB edges nodes e t pa pb (edgeAt edges e).right (trapAt nodes t).upperLeft
        (trapAt nodes t).lowerLeft).1.length + 1))
    (hN : lastP edges endpoints nodes e t pa pb (trapAt nodes t).upperRight (trapAt nodes t).lowerRight
      (trapAt nodes t).upperLeft (trapAt nodes t).lowerLeft = (N, a, b)) :
    LinkStep (Lf nodes) (Lf N) (UR nodes) (UL nodes) (UR N) (UL N) t a b none ro (some pb) ∧
    LinkStep (Lf nodes) (Lf N) (LR nodes) (LL nodes) (LR N) (LL N) t b a none ro (some pa) := by
  have htl := isLeaf_lt ht
  have hal := isLeaf_lt ha
  have hbl := isLeaf_lt hb
  have hout : ∀ i, isLeaf nodes i = true → i < nodes.length := fun i => isLeaf_lt
  obtain ⟨hl, hab, ula, llb, ulb, lla, ur, lr⟩ := m
  rcases hM : extAB edges nodes e t pa pb (edgeAt edges e).right (trapAt nodes t).upperLeft (trapAt nodes t).lowerLeft
    with ⟨M, a', b'⟩
  unfold lastP at hN
  simp only [hM, Prod.mk.injEq] at hN hro
  obtain ⟨hN, rfl, rfl⟩ := hN
  obtain ⟨n', hn', ea, eb, en, lM, fM, k1, k2, k3, k4⟩ := extAB_links ht ha hb hab hl hM
  set T := trapAt nodes t with hT
  have u1 : ∀ j, T.upperRight = some j → isLeaf nodes j = true ∧ j ≠ t := fun j hj => hl.ur hj
  have u2 : ∀ j, T.lowerRight = some j → isLeaf nodes j = true ∧ j ≠ t := fun j hj => hl.lr hj
  have u3 : ∀ j, T.upperLeft = some j → isLeaf nodes j = true ∧ j ≠ t := fun j hj => hl.ul hj
  have u4 : ∀ j, T.lowerLeft = some j → isLeaf nodes j = true ∧ j ≠ t := fun j hj => hl.ll hj
  have la : isLeaf M a' = true := (fM a').mpr (by simp)
  have lb : isLeaf M b' = true := (fM b').mpr (by simp)
  have w1 : ∀ j, T.upperRight = some j → isLeaf M j = true := fun j hj => (fM j).mpr (Or.inl (u1 j hj).1)
  have w2 : ∀ j, T.lowerRight = some j → isLeaf M j = true := fun j hj => (fM j).mpr (Or.inl (u2 j hj).1)
  have hp : (Node.y e b' a').isInner = true := rfl
  set R := attR edges endpoints M (.y e b' a') e a' b' T T.upperRight T.lowerRight with hR
  have hpR : R.2.isInner = true := attR_pend_inner hp
  have kR := fun i => attR_links (edges := edges) (endpoints := endpoints) (e := e) (T := T) (M := M) (pend := .y e b' a') (a := a') (b := b') (o1 := T.upperRight) (o2 := T.lowerRight) hp la lb w1 w2 i
  rw [← hR] at kR
  have bS : ∀ i, i ≠ t → trapAt N i = trapAt R.1 i := fun i h => by
    rw [← hN]; exact trapAt_set _ hpR t i h
  have mM : nodes.length ≤ M.length ∧ a' < M.length ∧ b' < M.length := by
    refine ⟨?_, isLeaf_lt la, isLeaf_lt lb⟩
    rw [lM]; split <;> omega
  clear_value R
  clear hR hM hN fM la lb w1 w2 hl lM hpR
  unfold UR UL LR LL Lf
  by_cases h3 : pt endpoints (edgeAt edges e).right = pt endpoints T.right
  · replace kR := fun i => (kR i).1 h3
    rw [if_pos h3] at hro
    by_cases h1 : (trapAt nodes pa).above = T.above <;>
    by_cases h2 : (trapAt nodes pb).below = T.below
    · rw [if_pos h1] at ea en
      rw [if_pos h2] at eb
      subst ea eb en hro
      refine ⟨?_, ?_⟩ <;> constructor <;> grind [Option.getD_none, Option.getD_some]
    · rw [if_pos h1] at ea en
      rw [if_neg h2] at eb
      subst ea eb en hro
      refine ⟨?_, ?_⟩ <;> constructor <;> grind [Option.getD_none, Option.getD_some]
    · rw [if_neg h1] at ea en
      rw [if_pos h2] at eb
      subst ea eb en hro
      refine ⟨?_, ?_⟩ <;> constructor <;> grind [Option.getD_none, Option.getD_some]
    · rw [if_neg h1] at ea en
      rw [if_neg h2] at eb
      subst ea eb en hro
      refine ⟨?_, ?_⟩ <;> constructor <;> grind [Option.getD_none, Option.getD_some]
  · replace kR := fun i => (kR i).2 h3
    rw [if_neg h3] at hro
    have F1 : ∀ i, i ≠ t → (trapAt N i).upperRight = _ := fun i hi => by rw [bS i hi, (kR i).1, k1 i]
    have F2 : ∀ i, i ≠ t → (trapAt N i).upperLeft = _ := fun i hi => by rw [bS i hi, (kR i).2.1, k2 i]
    have F3 : ∀ i, i ≠ t → (trapAt N i).lowerRight = _ := fun i hi => by rw [bS i hi, (kR i).2.2.1, k3 i]
    have F4 : ∀ i, i ≠ t → (trapAt N i).lowerLeft = _ := fun i hi => by rw [bS i hi, (kR i).2.2.2, k4 i]
    clear kR k1 k2 k3 k4 bS hp
    clear_value T
    by_cases h1 : (trapAt nodes pa).above = T.above <;>
    by_cases h2 : (trapAt nodes pb).below = T.below
    · rw [if_pos h1] at ea en
      rw [if_pos h2] at eb
      subst ea eb en hro
      refine ⟨?_, ?_⟩ <;> constructor <;> grind [Option.getD_none, Option.getD_some]
    · rw [if_pos h1] at ea en
      rw [if_neg h2] at eb
      subst ea eb en hro
      refine ⟨?_, ?_⟩ <;> constructor <;> grind [Option.getD_none, Option.getD_some]
    · rw [if_neg h1] at ea en
      rw [if_pos h2] at eb
      subst ea eb en hro
      refine ⟨?_, ?_⟩ <;> constructor <;> grind [Option.getD_none, Option.getD_some]
    · rw [if_neg h1] at ea en
      rw [if_neg h2] at eb
      subst ea eb en hro
      refine ⟨?_, ?_⟩ <;> constructor <;> grind [Option.getD_none, Option.getD_some]

end Rene.Seidel
