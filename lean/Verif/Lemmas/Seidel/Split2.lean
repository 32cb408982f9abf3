import Verif.Lemmas.Seidel.Split

namespace Rene.Seidel
open Rene Spec

theorem bare_eq_fields {T T' : Trap} (h : T.bare = T'.bare) :
    T.left = T'.left ∧ T.right = T'.right ∧ T.below = T'.below ∧ T.above = T'.above := by
  cases T; cases T'
  simp only [Trap.bare, Trap.mk.injEq, and_true] at h
  exact ⟨h.2.1, h.2.2.1, h.2.2.2.1, h.2.2.2.2⟩

theorem mkTrap_bare (edges : List Edge) (l r b a : Nat) : (mkTrap edges l r b a).bare = mkTrap edges l r b a := rfl

theorem singleP_split {edges : List Edge} {endpoints : List Point} {nodes : Nodes} {e t : Nat}
    {ur lr ul ll : Option Nat} (ht : isLeaf nodes t = true) :
    Split edges nodes (singleP edges endpoints nodes e t ur lr ul ll) e t nodes.length (nodes.length + 1)
      (edgeAt edges e).left (edgeAt edges e).right
      (if pt endpoints (edgeAt edges e).left = pt endpoints (trapAt nodes t).left then none
        else if pt endpoints (edgeAt edges e).right = pt endpoints (trapAt nodes t).right then some (nodes.length + 3)
        else some (nodes.length + 5))
      (if pt endpoints (edgeAt edges e).right = pt endpoints (trapAt nodes t).right then none
        else some (nodes.length + 3)) := by
  have htl := isLeaf_lt ht
  set n := nodes.length with hn
  set T := trapAt nodes t with hT
  have hp : (Node.y e (n + 1) n).isInner = true := rfl
  set M := twoTraps edges nodes e (edgeAt edges e).left (edgeAt edges e).right T with hM
  have lM : M.length = n + 2 := twoTraps_length
  set R := attR edges endpoints M (.y e (n + 1) n) e n (n + 1) T ur lr with hR
  have hpR : R.2.isInner = true := attR_pend_inner hp
  set L := attL edges endpoints R.1 R.2 e n (n + 1) T ul ll with hL
  have hpL : L.2.isInner = true := attL_pend_inner hpR
  have hS : singleP edges endpoints nodes e t ur lr ul ll = L.1.set t L.2 := rfl
  rw [hS]
  have lR : R.1.length = if pt endpoints (edgeAt edges e).right = pt endpoints T.right then n + 2 else n + 4 := by
    rw [hR, attR_length, lM]
  have lL : L.1.length = if pt endpoints (edgeAt edges e).left = pt endpoints T.left then R.1.length
      else R.1.length + 2 := by rw [hL, attL_length]
  have iM : ∀ i, inner M i = inner nodes i := fun i => twoTraps_inner i
  have iR : ∀ i, inner R.1 i = _ := fun i => attR_inner hp i
  have iL : ∀ i, inner L.1 i = _ := fun i => attL_inner hpR i
  have fM : ∀ i, isLeaf M i = _ := fun i => twoTraps_isLeaf i
  have fR : ∀ i, isLeaf R.1 i = _ := fun i => attR_isLeaf hp i
  have fL : ∀ i, isLeaf L.1 i = _ := fun i => attL_isLeaf hpR i
  have bM : ∀ i, trapAt M i = _ := fun i => twoTraps_trapAt i
  have bR : ∀ i, (trapAt R.1 i).bare = _ := fun i => attR_bare hp i
  have bL : ∀ i, (trapAt L.1 i).bare = _ := fun i => attL_bare hpR i
  have pR : R.2 = _ := attR_pend
  have pL : L.2 = _ := attL_pend
  have hlt : t < L.1.length := by rw [lL, lR]; split <;> split <;> omega
  have iS : ∀ i, inner (L.1.set t L.2) i = if i = t then some L.2 else inner L.1 i := fun i => inner_set _ hpL t i hlt
  have fS : ∀ i, isLeaf (L.1.set t L.2) i = (!decide (i = t) && isLeaf L.1 i) := fun i => isLeaf_set _ hpL t i
  have bS : ∀ i, i ≠ t → trapAt (L.1.set t L.2) i = trapAt L.1 i := fun i h => trapAt_set _ hpL t i h
  have out : ∀ i, n ≤ i → inner nodes i = none := fun i hi => by
    unfold inner; rw [List.getElem?_eq_none hi]
  have outl : ∀ i, n ≤ i → isLeaf nodes i = false := fun i hi => by
    unfold isLeaf; rw [List.getElem?_eq_none hi]
  clear_value L R M
  clear hL hR hM hS
  by_cases h1 : pt endpoints (edgeAt edges e).left = pt endpoints T.left <;>
  by_cases h2 : pt endpoints (edgeAt edges e).right = pt endpoints T.right
  all_goals
    simp only [h1, h2, if_true, if_false] at lR lL iR iL fR fL bR bL pR pL ⊢
    simp only [iL, iR, iM, lM, lR] at iS
    simp only [fL, fR, fM, lM, lR] at fS
    have bS' : ∀ i, i ≠ t → (trapAt (L.1.set t L.2) i).bare = (trapAt L.1 i).bare := fun i h => by rw [bS i h]
    simp only [bL, bR, bM, lM, lR] at bS'
    have lS : (L.1.set t L.2).length = L.1.length := by simp
    rw [lL, lR] at lS
    generalize L.1.set t L.2 = S at *
    rw [pL] at iS
    simp only [pR, lM, lR] at iS
    clear bS bM bR bL fL fR fM iL iR iM lL lR lM pL pR hpL hpR hlt
  · constructor
    case len => omega
    case inn => grind
    case leaf => grind
    case tree => exact ⟨t, by grind, by grind⟩
    case news =>
      intro i m hm
      by_cases g0 : i < nodes.length ∧ i ≠ t
      · left; exact ⟨g0.1, g0.2, by grind⟩
      · right
        refine ⟨by grind, ?_, ?_⟩
        · rw [iS] at hm
          split_ifs at hm <;> first | (cases hm; simp) | grind
        · rw [iS] at hm
          split_ifs at hm <;> first
            | (cases hm
               simp only [Node.children, List.mem_cons, List.not_mem_nil, or_false, forall_eq_or_imp, forall_eq, fS]
               grind)
            | grind
    case keep => grind
    case left => grind
    case right => grind
    case above => left; grind [mkTrap_bare]
    case below => left; grind [mkTrap_bare]
    case ab => omega
    case lr => grind
  · constructor
    case len => omega
    case inn => grind
    case leaf => grind
    case tree => exact ⟨n + 2, by grind, by grind⟩
    case news =>
      intro i m hm
      by_cases g0 : i < nodes.length ∧ i ≠ t
      · left; exact ⟨g0.1, g0.2, by grind⟩
      · right
        refine ⟨by grind, ?_, ?_⟩
        · rw [iS] at hm
          split_ifs at hm <;> first | (cases hm; simp) | grind
        · rw [iS] at hm
          split_ifs at hm <;> first
            | (cases hm
               simp only [Node.children, List.mem_cons, List.not_mem_nil, or_false, forall_eq_or_imp, forall_eq, fS]
               grind)
            | grind
    case keep => grind
    case left => grind
    case right => grind
    case above => left; grind [mkTrap_bare]
    case below => left; grind [mkTrap_bare]
    case ab => omega
    case lr => grind
  · constructor
    case len => omega
    case inn => grind
    case leaf => grind
    case tree => exact ⟨n + 2, by grind, by grind⟩
    case news =>
      intro i m hm
      by_cases g0 : i < nodes.length ∧ i ≠ t
      · left; exact ⟨g0.1, g0.2, by grind⟩
      · right
        refine ⟨by grind, ?_, ?_⟩
        · rw [iS] at hm
          split_ifs at hm <;> first | (cases hm; simp) | grind
        · rw [iS] at hm
          split_ifs at hm <;> first
            | (cases hm
               simp only [Node.children, List.mem_cons, List.not_mem_nil, or_false, forall_eq_or_imp, forall_eq, fS]
               grind)
            | grind
    case keep => grind
    case left => grind
    case right => grind
    case above => left; grind [mkTrap_bare]
    case below => left; grind [mkTrap_bare]
    case ab => omega
    case lr => grind
  · constructor
    case len => omega
    case inn => grind
    case leaf => grind
    case tree => exact ⟨n + 2, by grind, by grind⟩
    case news =>
      intro i m hm
      by_cases g0 : i < nodes.length ∧ i ≠ t
      · left; exact ⟨g0.1, g0.2, by grind⟩
      · right
        refine ⟨by grind, ?_, ?_⟩
        · rw [iS] at hm
          split_ifs at hm <;> first | (cases hm; simp) | grind
        · rw [iS] at hm
          split_ifs at hm <;> first
            | (cases hm
               simp only [Node.children, List.mem_cons, List.not_mem_nil, or_false, forall_eq_or_imp, forall_eq, fS]
               grind)
            | grind
    case keep => grind
    case left => grind
    case right => grind
    case above => left; grind [mkTrap_bare]
    case below => left; grind [mkTrap_bare]
    case ab => omega
    case lr => grind

theorem firstP_split {edges : List Edge} {endpoints : List Point} {nodes : Nodes} {e t : Nat}
    {ur lr ul ll : Option Nat} (ht : isLeaf nodes t = true) :
    Split edges nodes (firstP edges endpoints nodes e t ur lr ul ll) e t nodes.length (nodes.length + 1)
      (edgeAt edges e).left (trapAt nodes t).right
      (if pt endpoints (edgeAt edges e).left = pt endpoints (trapAt nodes t).left then none
        else some (nodes.length + 3)) none := by
  have htl := isLeaf_lt ht
  set n := nodes.length with hn
  set T := trapAt nodes t with hT
  have hp : (Node.y e (n + 1) n).isInner = true := rfl
  set M := twoTraps edges nodes e (edgeAt edges e).left T.right T with hM
  have lM : M.length = n + 2 := twoTraps_length
  set L := attL edges endpoints M (.y e (n + 1) n) e n (n + 1) T ul ll with hL
  have hpL : L.2.isInner = true := attL_pend_inner hp
  have hS : firstP edges endpoints nodes e t ur lr ul ll = (linkLR (linkUR L.1 n ur) (n + 1) lr).set t L.2 := rfl
  rw [hS]
  have lL : L.1.length = if pt endpoints (edgeAt edges e).left = pt endpoints T.left then n + 2 else n + 4 := by
    rw [hL, attL_length, lM]
  set Q := linkLR (linkUR L.1 n ur) (n + 1) lr with hQ
  have lQ : Q.length = L.1.length := by simp only [hQ, link_length]
  have iM : ∀ i, inner M i = inner nodes i := fun i => twoTraps_inner i
  have iL : ∀ i, inner L.1 i = _ := fun i => attL_inner hp i
  have iQ : ∀ i, inner Q i = inner L.1 i := fun i => by simp only [hQ, inner_link]
  have fM : ∀ i, isLeaf M i = _ := fun i => twoTraps_isLeaf i
  have fL : ∀ i, isLeaf L.1 i = _ := fun i => attL_isLeaf hp i
  have fQ : ∀ i, isLeaf Q i = isLeaf L.1 i := fun i => by simp only [hQ, isLeaf_link]
  have bM : ∀ i, trapAt M i = _ := fun i => twoTraps_trapAt i
  have bL : ∀ i, (trapAt L.1 i).bare = _ := fun i => attL_bare hp i
  have bQ : ∀ i, (trapAt Q i).bare = (trapAt L.1 i).bare := fun i => by
    simp only [hQ, bare_link bare_LR bare_LL, bare_link bare_UR bare_UL]
  have pL : L.2 = _ := attL_pend
  have hlt : t < Q.length := by rw [lQ, lL]; split <;> omega
  have iS : ∀ i, inner (Q.set t L.2) i = if i = t then some L.2 else inner Q i := fun i => inner_set _ hpL t i hlt
  have fS : ∀ i, isLeaf (Q.set t L.2) i = (!decide (i = t) && isLeaf Q i) := fun i => isLeaf_set _ hpL t i
  have bS : ∀ i, i ≠ t → trapAt (Q.set t L.2) i = trapAt Q i := fun i h => trapAt_set _ hpL t i h
  have out : ∀ i, n ≤ i → inner nodes i = none := fun i hi => by
    unfold inner; rw [List.getElem?_eq_none hi]
  have outl : ∀ i, n ≤ i → isLeaf nodes i = false := fun i hi => by
    unfold isLeaf; rw [List.getElem?_eq_none hi]
  clear_value Q L M
  clear hL hM hS hQ
  by_cases h1 : pt endpoints (edgeAt edges e).left = pt endpoints T.left
  all_goals
    simp only [h1, if_true, if_false] at lL iL fL bL pL ⊢
    simp only [iQ, iL, iM, lM] at iS
    simp only [fQ, fL, fM, lM] at fS
    have bS' : ∀ i, i ≠ t → (trapAt (Q.set t L.2) i).bare = (trapAt Q i).bare := fun i h => by rw [bS i h]
    simp only [bQ, bL, bM, lM] at bS'
    have lS : (Q.set t L.2).length = Q.length := by simp
    rw [lQ, lL] at lS
    generalize Q.set t L.2 = S at *
    rw [pL] at iS
    try simp only [lM] at iS
    clear bS bM bL bQ fL fM fQ iL iM iQ lL lM lQ pL hpL hlt
  · constructor
    case len => omega
    case inn => grind
    case leaf => grind
    case tree => exact ⟨t, by grind, by grind⟩
    case news =>
      intro i m hm
      by_cases g0 : i < nodes.length ∧ i ≠ t
      · left; exact ⟨g0.1, g0.2, by grind⟩
      · right
        refine ⟨by grind, ?_, ?_⟩
        · rw [iS] at hm
          split_ifs at hm <;> first | (cases hm; simp) | grind
        · rw [iS] at hm
          split_ifs at hm <;> first
            | (cases hm
               simp only [Node.children, List.mem_cons, List.not_mem_nil, or_false, forall_eq_or_imp, forall_eq, fS]
               grind)
            | grind
    case keep => grind
    case left => grind
    case right => grind
    case above => left; grind [mkTrap_bare]
    case below => left; grind [mkTrap_bare]
    case ab => omega
    case lr => grind
  · constructor
    case len => omega
    case inn => grind
    case leaf => grind
    case tree => exact ⟨n + 2, by grind, by grind⟩
    case news =>
      intro i m hm
      by_cases g0 : i < nodes.length ∧ i ≠ t
      · left; exact ⟨g0.1, g0.2, by grind⟩
      · right
        refine ⟨by grind, ?_, ?_⟩
        · rw [iS] at hm
          split_ifs at hm <;> first | (cases hm; simp) | grind
        · rw [iS] at hm
          split_ifs at hm <;> first
            | (cases hm
               simp only [Node.children, List.mem_cons, List.not_mem_nil, or_false, forall_eq_or_imp, forall_eq, fS]
               grind)
            | grind
    case keep => grind
    case left => grind
    case right => grind
    case above => left; grind [mkTrap_bare]
    case below => left; grind [mkTrap_bare]
    case ab => omega
    case lr => grind

section ext
variable {edges : List Edge} {nodes : Nodes} {e t pa pb right : Nat} {ul ll : Option Nat}

/-- The observable content of `extAB`. -/
theorem extAB_spec (ht : isLeaf nodes t = true) (ha : isLeaf nodes pa = true) (hb : isLeaf nodes pb = true)
    (hat : pa ≠ t) (hbt : pb ≠ t) (hab : pa ≠ pb) :
    ∃ (M : Nodes) (a b : Nat), extAB edges nodes e t pa pb right ul ll = (M, a, b) ∧
      nodes.length ≤ M.length ∧ (∀ i, inner M i = inner nodes i) ∧
      (∀ i, isLeaf M i = true ↔ isLeaf nodes i = true ∨ i = a ∨ i = b) ∧
      (∀ i, i < nodes.length → i ≠ a → i ≠ b → (trapAt M i).bare = (trapAt nodes i).bare) ∧ a ≠ b ∧
      a < M.length ∧ b < M.length ∧
      ((nodes.length ≤ a ∧ (trapAt nodes pa).above ≠ (trapAt nodes t).above ∧
        (trapAt M a).bare = mkTrap edges (trapAt nodes t).left right e (trapAt nodes t).above) ∨
      (a = pa ∧ (trapAt nodes pa).above = (trapAt nodes t).above ∧
        (trapAt M a).bare = { (trapAt nodes a).bare with right := right })) ∧
      ((nodes.length ≤ b ∧ (trapAt nodes pb).below ≠ (trapAt nodes t).below ∧
        (trapAt M b).bare = mkTrap edges (trapAt nodes t).left right (trapAt nodes t).below e) ∨
      (b = pb ∧ (trapAt nodes pb).below = (trapAt nodes t).below ∧
        (trapAt M b).bare = { (trapAt nodes b).bare with right := right })) := by
  have htl := isLeaf_lt ht
  have hal := isLeaf_lt ha
  have hbl := isLeaf_lt hb
  set A := extA edges nodes e t pa right ul with hA
  set B := extB edges A.1 e t pb right ll with hB
  refine ⟨B.1, A.2, B.2, rfl, ?_⟩
  have lA : A.1.length = _ := extA_length
  have lB : B.1.length = _ := extB_length
  have iA : ∀ i, inner A.1 i = _ := fun i => extA_inner i
  have iB : ∀ i, inner B.1 i = _ := fun i => extB_inner i
  have fA : ∀ i, isLeaf A.1 i = _ := fun i => extA_isLeaf i
  have fB : ∀ i, isLeaf B.1 i = _ := fun i => extB_isLeaf i
  have bA : ∀ i, (trapAt A.1 i).bare = _ := fun i => extA_bare ha i
  have hbA : isLeaf A.1 pb = true := by rw [fA]; split <;> simp [hb]
  have bB : ∀ i, (trapAt B.1 i).bare = _ := fun i => extB_bare hbA i
  have sA : A.2 = _ := extA_snd
  have sB : B.2 = _ := extB_snd
  have q : (trapAt A.1 t).bare = (trapAt nodes t).bare := by
    rw [bA]; split
    · rw [if_neg (fun q => hat q.symm)]
    · rw [if_neg (by omega)]
  have q1 := bare_eq_fields q
  have q2 : (trapAt A.1 pb).bare = (trapAt nodes pb).bare := by
    rw [bA]; split
    · rw [if_neg (fun q => hab q.symm)]
    · rw [if_neg (by omega)]
  have q3 := bare_eq_fields q2
  rw [q3.2.2.1, q1.2.2.1] at lB sB
  simp only [q3.2.2.1, q1.2.2.1, q1.1, q2] at fB bB
  clear_value B A
  clear hA hB
  by_cases h1 : (trapAt nodes pa).above = (trapAt nodes t).above <;>
  by_cases h2 : (trapAt nodes pb).below = (trapAt nodes t).below
  all_goals
    simp only [h1, h2, if_true, if_false] at lA lB fA fB bA bB sA sB ⊢
    simp only [iA] at iB
    simp only [fA, lA] at fB
    simp only [bA, lA] at bB
    simp only [lA] at lB
    try simp only [lA] at sB
    rw [sA, sB]
    generalize B.1 = S at *
    refine ⟨by omega, iB, ?_, ?_, by omega, by omega, by omega, ?_, ?_⟩
    all_goals clear iA fA bA iB
    all_goals grind
end ext

theorem middleP_split {edges : List Edge} {nodes : Nodes} {e t pa pb : Nat} {ur lr ul ll : Option Nat}
    (ht : isLeaf nodes t = true) (ha : isLeaf nodes pa = true) (hb : isLeaf nodes pb = true)
    (hat : pa ≠ t) (hbt : pb ≠ t) (hab : pa ≠ pb) :
    Split edges nodes (middleP edges nodes e t pa pb ur lr ul ll).1 e t
      (middleP edges nodes e t pa pb ur lr ul ll).2.1 (middleP edges nodes e t pa pb ur lr ul ll).2.2
      (trapAt nodes t).left (trapAt nodes t).right none none := by
  have htl := isLeaf_lt ht
  have hal := isLeaf_lt ha
  have hbl := isLeaf_lt hb
  obtain ⟨M, a, b, hM, lM, iM, fM, bM, hne, la, lb, aM, bM'⟩ :=
    extAB_spec (edges := edges) (e := e) (right := (trapAt nodes t).right) (ul := ul) (ll := ll) ht ha hb hat hbt hab
  unfold middleP
  simp only [hM]
  set Q := linkLR (linkUR M a ur) b lr with hQ
  have lQ : Q.length = M.length := by simp only [hQ, link_length]
  have iQ : ∀ i, inner Q i = inner M i := fun i => by simp only [hQ, inner_link]
  have fQ : ∀ i, isLeaf Q i = isLeaf M i := fun i => by simp only [hQ, isLeaf_link]
  have bQ : ∀ i, (trapAt Q i).bare = (trapAt M i).bare := fun i => by
    simp only [hQ, bare_link bare_LR bare_LL, bare_link bare_UR bare_UL]
  have hp : (Node.y e b a).isInner = true := rfl
  have hlt : t < Q.length := by omega
  have iS : ∀ i, inner (Q.set t (.y e b a)) i = if i = t then some (.y e b a) else inner Q i :=
    fun i => inner_set _ hp t i hlt
  have fS : ∀ i, isLeaf (Q.set t (.y e b a)) i = (!decide (i = t) && isLeaf Q i) := fun i => isLeaf_set _ hp t i
  have bS : ∀ i, i ≠ t → (trapAt (Q.set t (.y e b a)) i).bare = (trapAt Q i).bare :=
    fun i h => by rw [trapAt_set _ hp t i h]
  have lS : (Q.set t (.y e b a)).length = Q.length := by simp
  have out : ∀ i, nodes.length ≤ i → inner nodes i = none := fun i hi => by
    unfold inner; rw [List.getElem?_eq_none hi]
  clear_value Q
  clear hQ hM
  generalize Q.set t (.y e b a) = S at *
  simp only [iQ, iM] at iS
  simp only [fQ] at fS
  simp only [bQ] at bS
  clear iQ fQ bQ iM
  constructor
  case len => omega
  case inn => grind
  case leaf => grind
  case tree => exact ⟨t, by grind, by grind⟩
  case news =>
    intro i m hm
    by_cases g0 : i < nodes.length ∧ i ≠ t
    · left; exact ⟨g0.1, g0.2, by grind⟩
    · right
      refine ⟨by grind, ?_, ?_⟩
      · rw [iS] at hm
        split_ifs at hm <;> first | (cases hm; simp) | grind
      · rw [iS] at hm
        split_ifs at hm <;> first
          | (cases hm
             simp only [Node.children, List.mem_cons, List.not_mem_nil, or_false, forall_eq_or_imp, forall_eq, fS]
             grind)
          | grind
  case keep => grind
  case left => grind
  case right => grind
  case above =>
    rcases aM with h | h
    · left; exact ⟨h.1, by rw [bS _ (by omega)]; exact h.2.2⟩
    · right; obtain ⟨rfl, h1, h2⟩ := h; exact ⟨hal, hat, ha, h1, by rw [bS _ hat]; exact h2⟩
  case below =>
    rcases bM' with h | h
    · left; exact ⟨h.1, by rw [bS _ (by omega)]; exact h.2.2⟩
    · right; obtain ⟨rfl, h1, h2⟩ := h; exact ⟨hbl, hbt, hb, h1, by rw [bS _ hbt]; exact h2⟩
  case ab => exact hne
  case lr => grind

theorem lastP_split {edges : List Edge} {endpoints : List Point} {nodes : Nodes} {e t pa pb : Nat}
    {ur lr ul ll : Option Nat}
    (ht : isLeaf nodes t = true) (ha : isLeaf nodes pa = true) (hb : isLeaf nodes pb = true)
    (hat : pa ≠ t) (hbt : pb ≠ t) (hab : pa ≠ pb) :
    ∃ ro, (ro = none ↔ pt endpoints (edgeAt edges e).right = pt endpoints (trapAt nodes t).right) ∧
    (ro = if pt endpoints (edgeAt edges e).right = pt endpoints (trapAt nodes t).right then none
      else some ((extAB edges nodes e t pa pb (edgeAt edges e).right ul ll).1.length + 1)) ∧
    Split edges nodes (lastP edges endpoints nodes e t pa pb ur lr ul ll).1 e t
      (lastP edges endpoints nodes e t pa pb ur lr ul ll).2.1 (lastP edges endpoints nodes e t pa pb ur lr ul ll).2.2
      (trapAt nodes t).left (edgeAt edges e).right none ro := by
  have htl := isLeaf_lt ht
  have hal := isLeaf_lt ha
  have hbl := isLeaf_lt hb
  obtain ⟨M, a, b, hM, lM, iM, fM, bM, hne, la, lb, aM, bM'⟩ :=
    extAB_spec (edges := edges) (e := e) (right := (edgeAt edges e).right) (ul := ul) (ll := ll) ht ha hb hat hbt hab
  unfold lastP
  simp only [hM]
  refine ⟨_, ?_, rfl, ?_⟩
  · split <;> simp_all
  set T := trapAt nodes t with hT
  have hp : (Node.y e b a).isInner = true := rfl
  set R := attR edges endpoints M (.y e b a) e a b T ur lr with hR
  have hpR : R.2.isInner = true := attR_pend_inner hp
  have lR : R.1.length = _ := attR_length
  have iR : ∀ i, inner R.1 i = _ := fun i => attR_inner hp i
  have fR : ∀ i, isLeaf R.1 i = _ := fun i => attR_isLeaf hp i
  have bR : ∀ i, (trapAt R.1 i).bare = _ := fun i => attR_bare hp i
  have pR : R.2 = _ := attR_pend
  have hlt : t < R.1.length := by rw [lR]; split <;> omega
  have iS : ∀ i, inner (R.1.set t R.2) i = if i = t then some R.2 else inner R.1 i := fun i => inner_set _ hpR t i hlt
  have fS : ∀ i, isLeaf (R.1.set t R.2) i = (!decide (i = t) && isLeaf R.1 i) := fun i => isLeaf_set _ hpR t i
  have bS : ∀ i, i ≠ t → (trapAt (R.1.set t R.2) i).bare = (trapAt R.1 i).bare :=
    fun i h => by rw [trapAt_set _ hpR t i h]
  have lS : (R.1.set t R.2).length = R.1.length := by simp
  have out : ∀ i, nodes.length ≤ i → inner nodes i = none := fun i hi => by
    unfold inner; rw [List.getElem?_eq_none hi]
  clear_value R
  clear hR hM
  by_cases h2 : pt endpoints (edgeAt edges e).right = pt endpoints T.right
  all_goals
    simp only [h2, if_true, if_false] at lR iR fR bR pR ⊢
    generalize R.1.set t R.2 = S at *
    simp only [iR, iM] at iS
    simp only [fR] at fS
    simp only [bR] at bS
    rw [pR] at iS
    clear iR fR bR iM pR
    constructor
    case len => omega
    case inn => grind
    case leaf => grind
    case news =>
      intro i m hm
      by_cases g0 : i < nodes.length ∧ i ≠ t
      · left; exact ⟨g0.1, g0.2, by grind⟩
      · right
        refine ⟨by grind, ?_, ?_⟩
        · rw [iS] at hm
          split_ifs at hm <;> first | (cases hm; simp) | grind
        · rw [iS] at hm
          split_ifs at hm <;> first
            | (cases hm
               simp only [Node.children, List.mem_cons, List.not_mem_nil, or_false, forall_eq_or_imp, forall_eq, fS]
               grind)
            | grind
    case keep => grind
    case left => grind
    case right => grind
    case above =>
      rcases aM with h | h
      · left; exact ⟨h.1, by rw [bS _ (by omega)]; (try rw [if_neg (by omega)]); exact h.2.2⟩
      · right
        obtain ⟨rfl, h1, h2⟩ := h
        exact ⟨hal, hat, ha, h1, by rw [bS _ hat]; (try rw [if_neg (by omega)]); exact h2⟩
    case below =>
      rcases bM' with h | h
      · left; exact ⟨h.1, by rw [bS _ (by omega)]; (try rw [if_neg (by omega)]); exact h.2.2⟩
      · right
        obtain ⟨rfl, h1, h2⟩ := h
        exact ⟨hbl, hbt, hb, h1, by rw [bS _ hbt]; (try rw [if_neg (by omega)]); exact h2⟩
    case ab => exact hne
    case lr => grind
  · exact ⟨t, by grind, by grind⟩
  · exact ⟨M.length, by grind, by grind⟩

theorem addEdgeToMiddle_ok {edges : List Edge} {nodes : Nodes} {e t pa pb : Nat} {r : Nodes × Nat × Nat}
    (ht : isLeaf nodes t = true) (ha : isLeaf nodes pa = true) (hat : pa ≠ t)
    (h : addEdgeToMiddle edges nodes e t pa pb = .ok r) :
    ∃ ur lr ul ll, r = middleP edges nodes e t pa pb ur lr ul ll := by
  unfold addEdgeToMiddle at h
  obtain ⟨r1, h1, h⟩ := bind_ok h
  obtain ⟨r2, h2, h⟩ := bind_ok h
  obtain ⟨r3, h3, h⟩ := bind_ok h
  obtain ⟨r4, h4, h⟩ := bind_ok h
  simp only [createYNode] at h
  obtain ⟨r5, h5, h⟩ := bind_ok h
  obtain ⟨ul, rfl⟩ := extendAbove_ok h1
  have hr : (trapAt (extA edges nodes e t pa (trapAt nodes t).right ul).1 t).right = (trapAt nodes t).right := by
    have := isLeaf_lt ht
    refine (bare_eq_fields ?_).2.1
    rw [extA_bare ha]; split
    · rw [if_neg (fun q => hat q.symm)]
    · rw [if_neg (by omega)]
  rw [hr] at h2
  obtain ⟨ll, rfl⟩ := extendBelow_ok h2
  have g3 := maybeUR_ok h3
  have g4 := maybeLR_ok h4
  subst g3
  subst g4
  rw [replaceNode_append] at h5
  cases h5
  cases h
  exact ⟨_, _, _, _, rfl⟩

theorem addEdgeToLast_ok {edges : List Edge} {endpoints : List Point} {nodes : Nodes} {e t pa pb : Nat} {N : Nodes}
    (ht : isLeaf nodes t = true) (ha : isLeaf nodes pa = true) (hb : isLeaf nodes pb = true)
    (hat : pa ≠ t) (hbt : pb ≠ t) (hab : pa ≠ pb)
    (h : addEdgeToLast edges endpoints nodes e t pa pb = .ok N) :
    ∃ ur lr ul ll, N = (lastP edges endpoints nodes e t pa pb ur lr ul ll).1 := by
  unfold addEdgeToLast at h
  obtain ⟨r1, h1, h⟩ := bind_ok h
  obtain ⟨r2, h2, h⟩ := bind_ok h
  simp only [createYNode] at h
  obtain ⟨r3, h3, h⟩ := bind_ok h
  obtain ⟨ul, rfl⟩ := extendAbove_ok h1
  obtain ⟨ll, rfl⟩ := extendBelow_ok h2
  obtain ⟨ur, lr, rfl⟩ := attachRight_ok rfl h3
  simp only at h
  rw [replaceNode_append] at h
  cases h
  refine ⟨ur, lr, ul, ll, ?_⟩
  unfold lastP extAB
  simp only
  rw [attR_congr (T' := trapAt nodes t)]
  obtain ⟨M, a, b, hM, lM, iM, fM, bM, hne, la, lb, aM, bM'⟩ :=
    extAB_spec (edges := edges) (e := e) (right := (edgeAt edges e).right) (ul := ul) (ll := ll) ht ha hb hat hbt hab
  unfold extAB at hM
  simp only [Prod.mk.injEq] at hM
  have := isLeaf_lt ht
  rw [hM.1]
  refine bM t this ?_ ?_
  · rcases aM with g | g
    · omega
    · rw [g.1]; exact fun q => hat q.symm
  · rcases bM' with g | g
    · omega
    · rw [g.1]; exact fun q => hbt q.symm

end Rene.Seidel
