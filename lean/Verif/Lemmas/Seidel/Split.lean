import Verif.Lemmas.Seidel.Ops

/-! What inserting an edge into one trapezoid does to the graph, up to links between neighbours. -/

namespace Rene.Seidel
open Rene Spec

section att
variable {edges : List Edge} {endpoints : List Point} {M : Nodes} {pend : Node} {e a b : Nat} {T : Trap}
  {o1 o2 : Option Nat}

theorem attL_length : (attL edges endpoints M pend e a b T o1 o2).1.length =
    if pt endpoints (edgeAt edges e).left = pt endpoints T.left then M.length else M.length + 2 := by
  unfold attL; split <;> simp [link_length]

theorem attL_pend : (attL edges endpoints M pend e a b T o1 o2).2 =
    if pt endpoints (edgeAt edges e).left = pt endpoints T.left then pend
    else .x (edgeAt edges e).left (M.length + 1) M.length := by
  unfold attL; split <;> rfl

theorem attL_inner (hp : pend.isInner = true) (i : Nat) : inner (attL edges endpoints M pend e a b T o1 o2).1 i =
    if pt endpoints (edgeAt edges e).left = pt endpoints T.left then inner M i
    else if i = M.length then some pend else inner M i := by
  unfold attL; split <;> simp only [inner_link, inner_append_leaf, inner_append_inner _ hp]

theorem attL_isLeaf (hp : pend.isInner = true) (i : Nat) : isLeaf (attL edges endpoints M pend e a b T o1 o2).1 i =
    if pt endpoints (edgeAt edges e).left = pt endpoints T.left then isLeaf M i
    else (decide (i = M.length + 1) || isLeaf M i) := by
  unfold attL; split <;> simp only [isLeaf_link, isLeaf_append_leaf, isLeaf_append_inner _ hp, List.length_append,
    List.length_cons, List.length_nil]

theorem attL_bare (hp : pend.isInner = true) (i : Nat) :
    (trapAt (attL edges endpoints M pend e a b T o1 o2).1 i).bare =
    if pt endpoints (edgeAt edges e).left = pt endpoints T.left then (trapAt M i).bare
    else if i = M.length + 1 then mkTrap edges T.left (edgeAt edges e).left T.below T.above
    else (trapAt M i).bare := by
  unfold attL
  split
  · simp [bare_link, bare_UL, bare_UR, bare_LL, bare_LR]
  · simp only [bare_link bare_UL bare_UR, bare_link bare_UR bare_UL, bare_link bare_LL bare_LR,
      bare_link bare_LR bare_LL, trapAt_append_leaf, trapAt_append_inner _ hp, List.length_append, List.length_cons,
      List.length_nil]
    split <;> rfl

theorem attR_length : (attR edges endpoints M pend e a b T o1 o2).1.length =
    if pt endpoints (edgeAt edges e).right = pt endpoints T.right then M.length else M.length + 2 := by
  unfold attR; split <;> simp [link_length]

theorem attR_pend : (attR edges endpoints M pend e a b T o1 o2).2 =
    if pt endpoints (edgeAt edges e).right = pt endpoints T.right then pend
    else .x (edgeAt edges e).right M.length (M.length + 1) := by
  unfold attR; split <;> rfl

theorem attR_inner (hp : pend.isInner = true) (i : Nat) : inner (attR edges endpoints M pend e a b T o1 o2).1 i =
    if pt endpoints (edgeAt edges e).right = pt endpoints T.right then inner M i
    else if i = M.length then some pend else inner M i := by
  unfold attR; split <;> simp only [inner_link, inner_append_leaf, inner_append_inner _ hp]

theorem attR_isLeaf (hp : pend.isInner = true) (i : Nat) : isLeaf (attR edges endpoints M pend e a b T o1 o2).1 i =
    if pt endpoints (edgeAt edges e).right = pt endpoints T.right then isLeaf M i
    else (decide (i = M.length + 1) || isLeaf M i) := by
  unfold attR; split <;> simp only [isLeaf_link, isLeaf_append_leaf, isLeaf_append_inner _ hp, List.length_append,
    List.length_cons, List.length_nil]

theorem attR_bare (hp : pend.isInner = true) (i : Nat) :
    (trapAt (attR edges endpoints M pend e a b T o1 o2).1 i).bare =
    if pt endpoints (edgeAt edges e).right = pt endpoints T.right then (trapAt M i).bare
    else if i = M.length + 1 then mkTrap edges (edgeAt edges e).right T.right T.below T.above
    else (trapAt M i).bare := by
  unfold attR
  split
  · simp [bare_link, bare_UL, bare_UR, bare_LL, bare_LR]
  · simp only [bare_link bare_UL bare_UR, bare_link bare_UR bare_UL, bare_link bare_LL bare_LR,
      bare_link bare_LR bare_LL, trapAt_append_leaf, trapAt_append_inner _ hp, List.length_append, List.length_cons,
      List.length_nil]
    split <;> rfl

theorem attL_pend_inner (hp : pend.isInner = true) : (attL edges endpoints M pend e a b T o1 o2).2.isInner = true := by
  rw [attL_pend]; split
  · exact hp
  · rfl

theorem attR_pend_inner (hp : pend.isInner = true) : (attR edges endpoints M pend e a b T o1 o2).2.isInner = true := by
  rw [attR_pend]; split
  · exact hp
  · rfl
end att

/-- The result of inserting edge `e` into the trapezoid of leaf `t`: above and below it are the leaves `a` and `b`,
new or taken over from the left, and possibly new leaves to the left and to the right of the edge. -/
structure Split (edges : List Edge) (nodes nodes' : Nodes) (e t a b la ra : Nat) (lo ro : Option Nat) : Prop where
  len : nodes.length ≤ nodes'.length
  inn : ∀ i, i < nodes.length → i ≠ t → inner nodes' i = inner nodes i
  leaf : ∀ i, isLeaf nodes' i = true ↔
    (isLeaf nodes i = true ∧ i ≠ t) ∨ i = a ∨ i = b ∨ lo = some i ∨ ro = some i
  tree : ∃ q, inner nodes' q = some (.y e b a) ∧ ((lo = none ∧ ro = none ∧ q = t) ∨
    (∃ l, lo = some l ∧ ro = none ∧ inner nodes' t = some (.x (edgeAt edges e).left l q)) ∨
    (∃ r, lo = none ∧ ro = some r ∧ inner nodes' t = some (.x (edgeAt edges e).right q r)) ∨
    (∃ l r w, lo = some l ∧ ro = some r ∧ inner nodes' t = some (.x (edgeAt edges e).left l w) ∧
      inner nodes' w = some (.x (edgeAt edges e).right q r)))
  news : ∀ i n, inner nodes' i = some n → (i < nodes.length ∧ i ≠ t ∧ inner nodes i = some n) ∨
    ((i = t ∨ nodes.length ≤ i) ∧ ((∃ p l r, n = .x p l r ∧
      (p = (edgeAt edges e).left ∨ p = (edgeAt edges e).right)) ∨ n = .y e b a) ∧ ∀ j ∈ n.children,
      j < nodes'.length ∧ (isLeaf nodes' j = true ∨ (nodes.length ≤ j ∧ (i = t ∨ j < i))))
  keep : ∀ i, i < nodes.length → i ≠ t → i ≠ a → i ≠ b → (trapAt nodes' i).bare = (trapAt nodes i).bare
  left : ∀ l, lo = some l → nodes.length ≤ l ∧ l ≠ a ∧ l ≠ b ∧ (trapAt nodes' l).bare =
    mkTrap edges (trapAt nodes t).left (edgeAt edges e).left (trapAt nodes t).below (trapAt nodes t).above
  right : ∀ r, ro = some r → nodes.length ≤ r ∧ r ≠ a ∧ r ≠ b ∧ (trapAt nodes' r).bare =
    mkTrap edges (edgeAt edges e).right (trapAt nodes t).right (trapAt nodes t).below (trapAt nodes t).above
  above : (nodes.length ≤ a ∧ (trapAt nodes' a).bare = mkTrap edges la ra e (trapAt nodes t).above) ∨
    (a < nodes.length ∧ a ≠ t ∧ isLeaf nodes a = true ∧ (trapAt nodes a).above = (trapAt nodes t).above ∧
      (trapAt nodes' a).bare = { (trapAt nodes a).bare with right := ra })
  below : (nodes.length ≤ b ∧ (trapAt nodes' b).bare = mkTrap edges la ra (trapAt nodes t).below e) ∨
    (b < nodes.length ∧ b ≠ t ∧ isLeaf nodes b = true ∧ (trapAt nodes b).below = (trapAt nodes t).below ∧
      (trapAt nodes' b).bare = { (trapAt nodes b).bare with right := ra })
  ab : a ≠ b
  lr : ∀ l, lo = some l → ro ≠ some l

theorem Ranked.split {edges : List Edge} {nodes nodes' : Nodes} {e t a b la ra : Nat} {lo ro : Option Nat}
    (h : Ranked nodes) (ht : isLeaf nodes t = true) (s : Split edges nodes nodes' e t a b la ra lo ro) :
    Ranked nodes' := by
  classical
  obtain ⟨h0, rk, hr⟩ := h
  refine ⟨by have := s.len; omega, ?_⟩
  let B := (Finset.range nodes.length).sup rk
  have hB : ∀ i, i < nodes.length → rk i ≤ B := fun i hi => Finset.le_sup (f := rk) (Finset.mem_range.mpr hi)
  let K := nodes'.length
  refine ⟨fun i => if i = t then B + 1 else if i < nodes.length then rk i else B + 2 + (K - i), ?_⟩
  intro i n hn j hj
  rcases s.news i n hn with ⟨g1, g2, g3⟩ | ⟨g1, -, g2⟩
  · have := hr i n g3 j hj
    refine ⟨by have := s.len; omega, ?_⟩
    intro hj'
    simp only [g1, g2, if_true, if_false]
    have hi := hB i g1
    by_cases q : j = t
    · simp [q]; omega
    · have h1 : j < nodes.length := this.1
      simp only [q, h1, if_true, if_false]
      rw [s.inn j h1 q] at hj'
      exact this.2 hj'
  · obtain ⟨q1, q2⟩ := g2 j hj
    refine ⟨q1, ?_⟩
    intro hj'
    rcases q2 with q2 | ⟨q2, q3⟩
    · rw [leaf_not_inner q2] at hj'; simp at hj'
    · have htl := isLeaf_lt ht
      have w1 : ¬ j = t := by omega
      have w2 : ¬ j < nodes.length := by omega
      simp only [w1, w2, if_false]
      rcases q3 with q3 | q3
      · subst q3; simp; omega
      · by_cases w3 : i = t
        · simp [w3]; omega
        · have w4 : ¬ i < nodes.length := by omega
          simp only [w3, w4, if_false]
          have : i < K := inner_lt hn
          omega

/-- The nodes after creating the two trapezoids in `addEdgeToFirst` and `addEdgeToSingle`. -/
def twoTraps (edges : List Edge) (nodes : Nodes) (e la ra : Nat) (T : Trap) : Nodes :=
  nodes ++ [.leaf (mkTrap edges la ra e T.above)] ++ [.leaf (mkTrap edges la ra T.below e)]

theorem twoTraps_length {edges : List Edge} {nodes : Nodes} {e la ra : Nat} {T : Trap} :
    (twoTraps edges nodes e la ra T).length = nodes.length + 2 := by simp [twoTraps]

theorem twoTraps_inner {edges : List Edge} {nodes : Nodes} {e la ra : Nat} {T : Trap} (i : Nat) :
    inner (twoTraps edges nodes e la ra T) i = inner nodes i := by
  simp only [twoTraps, inner_append_leaf]

theorem twoTraps_isLeaf {edges : List Edge} {nodes : Nodes} {e la ra : Nat} {T : Trap} (i : Nat) :
    isLeaf (twoTraps edges nodes e la ra T) i =
      (decide (i = nodes.length + 1) || (decide (i = nodes.length) || isLeaf nodes i)) := by
  simp only [twoTraps, isLeaf_append_leaf, List.length_append, List.length_cons, List.length_nil]

theorem twoTraps_trapAt {edges : List Edge} {nodes : Nodes} {e la ra : Nat} {T : Trap} (i : Nat) :
    trapAt (twoTraps edges nodes e la ra T) i =
      if i = nodes.length + 1 then mkTrap edges la ra T.below e
      else if i = nodes.length then mkTrap edges la ra e T.above else trapAt nodes i := by
  simp only [twoTraps, trapAt_append_leaf, List.length_append, List.length_cons, List.length_nil]

/-- `addEdgeToSingle` in closed form. -/
def singleP (edges : List Edge) (endpoints : List Point) (nodes : Nodes) (e t : Nat) (ur lr ul ll : Option Nat) :
    Nodes :=
  let T := trapAt nodes t
  let n := nodes.length
  let R := attR edges endpoints (twoTraps edges nodes e (edgeAt edges e).left (edgeAt edges e).right T)
    (.y e (n + 1) n) e n (n + 1) T ur lr
  let L := attL edges endpoints R.1 R.2 e n (n + 1) T ul ll
  L.1.set t L.2

/-- `addEdgeToFirst` in closed form. -/
def firstP (edges : List Edge) (endpoints : List Point) (nodes : Nodes) (e t : Nat) (ur lr ul ll : Option Nat) :
    Nodes :=
  let T := trapAt nodes t
  let n := nodes.length
  let L := attL edges endpoints (twoTraps edges nodes e (edgeAt edges e).left T.right T)
    (.y e (n + 1) n) e n (n + 1) T ul ll
  (linkLR (linkUR L.1 n ur) (n + 1) lr).set t L.2

theorem attL_congr {edges : List Edge} {endpoints : List Point} {M : Nodes} {pend : Node} {e a b : Nat}
    {T T' : Trap} {o1 o2 : Option Nat} (h : T.bare = T'.bare) :
    attL edges endpoints M pend e a b T o1 o2 = attL edges endpoints M pend e a b T' o1 o2 := by
  cases T; cases T'
  simp only [Trap.bare, Trap.mk.injEq, and_true] at h
  obtain ⟨-, rfl, -, rfl, rfl⟩ := h
  rfl

theorem attR_congr {edges : List Edge} {endpoints : List Point} {M : Nodes} {pend : Node} {e a b : Nat}
    {T T' : Trap} {o1 o2 : Option Nat} (h : T.bare = T'.bare) :
    attR edges endpoints M pend e a b T o1 o2 = attR edges endpoints M pend e a b T' o1 o2 := by
  cases T; cases T'
  simp only [Trap.bare, Trap.mk.injEq, and_true] at h
  obtain ⟨-, -, rfl, rfl, rfl⟩ := h
  rfl

theorem replaceNode_append' {nodes : Nodes} {n : Node} {t k : Nat} (h : k = nodes.length) :
    replaceNode (nodes ++ [n]) t k = .ok (nodes.set t n) := by
  subst h; exact replaceNode_append _ _ _

theorem createTrapezoid_eq (edges : List Edge) (N : Nodes) (l r b a : Nat) :
    createTrapezoid edges N l r b a = (N ++ [.leaf (mkTrap edges l r b a)], N.length) := rfl

theorem trapAt_append_lt {N : Nodes} {t : Nat} (h : t < N.length) (X : Trap) :
    trapAt (N ++ [.leaf X]) t = trapAt N t := by
  rw [trapAt_append_leaf, if_neg (by omega)]

theorem addEdgeToSingle_eq {edges : List Edge} {endpoints : List Point} {nodes : Nodes} {e t : Nat}
    (ht : isLeaf nodes t = true) : addEdgeToSingle edges endpoints nodes e t =
    ((attachRight edges endpoints
      (twoTraps edges nodes e (edgeAt edges e).left (edgeAt edges e).right (trapAt nodes t) ++
        [.y e (nodes.length + 1) nodes.length]) e t nodes.length (nodes.length + 1)
      (twoTraps edges nodes e (edgeAt edges e).left (edgeAt edges e).right (trapAt nodes t)).length) >>=
      fun r => (attachLeft edges endpoints r.1 e t nodes.length (nodes.length + 1) r.2) >>=
      fun r => replaceNode r.1 t r.2) := by
  have htl := isLeaf_lt ht
  unfold addEdgeToSingle
  simp only [createTrapezoid_eq, createYNode, trapAt_append_lt htl, List.length_append, List.length_cons,
    List.length_nil]
  rw [twoTraps_length]
  rfl

theorem addEdgeToFirst_eq {edges : List Edge} {endpoints : List Point} {nodes : Nodes} {e t : Nat}
    (ht : isLeaf nodes t = true) : addEdgeToFirst edges endpoints nodes e t =
    ((attachLeft edges endpoints
      (twoTraps edges nodes e (edgeAt edges e).left (trapAt nodes t).right (trapAt nodes t) ++
        [.y e (nodes.length + 1) nodes.length]) e t nodes.length (nodes.length + 1)
      (twoTraps edges nodes e (edgeAt edges e).left (trapAt nodes t).right (trapAt nodes t)).length) >>=
      fun r => (maybeSetAsUpperRight r.1 nodes.length (trapAt r.1 t).upperRight) >>=
      fun N => (maybeSetAsLowerRight N (nodes.length + 1) (trapAt N t).lowerRight) >>=
      fun N => (replaceNode N t r.2) >>= fun N => pure (N, nodes.length, nodes.length + 1)) := by
  have htl := isLeaf_lt ht
  unfold addEdgeToFirst
  simp only [createTrapezoid_eq, createYNode, trapAt_append_lt htl, List.length_append, List.length_cons,
    List.length_nil]
  rw [twoTraps_length]
  rfl

theorem bare_attR_lt {edges : List Edge} {endpoints : List Point} {M : Nodes} {pend : Node} {e a b : Nat}
    {T : Trap} {o1 o2 : Option Nat} (hp : pend.isInner = true) {t : Nat} (ht : t < M.length) :
    (trapAt (attR edges endpoints M pend e a b T o1 o2).1 t).bare = (trapAt M t).bare := by
  rw [attR_bare hp]; split
  · rfl
  · rw [if_neg (by omega)]

theorem addEdgeToSingle_ok {edges : List Edge} {endpoints : List Point} {nodes N : Nodes} {e t : Nat}
    (ht : isLeaf nodes t = true) (h : addEdgeToSingle edges endpoints nodes e t = .ok N) :
    ∃ ur lr ul ll, N = singleP edges endpoints nodes e t ur lr ul ll := by
  have htl := isLeaf_lt ht
  have hp : (Node.y e (nodes.length + 1) nodes.length).isInner = true := rfl
  rw [addEdgeToSingle_eq ht] at h
  obtain ⟨r1, h1, h⟩ := bind_ok h
  obtain ⟨r2, h2, h3⟩ := bind_ok h
  obtain ⟨ur, lr, rfl⟩ := attachRight_ok hp h1
  obtain ⟨ul, ll, rfl⟩ := attachLeft_ok (attR_pend_inner hp) h2
  have hb : trapAt (twoTraps edges nodes e (edgeAt edges e).left (edgeAt edges e).right (trapAt nodes t)) t =
      trapAt nodes t := by
    rw [twoTraps_trapAt, if_neg (by omega), if_neg (by omega)]
  rw [hb] at h3
  simp only at h3
  rw [replaceNode_append] at h3
  refine ⟨ur, lr, ul, ll, ?_⟩
  cases h3
  unfold singleP
  simp only
  rw [attL_congr (T' := trapAt nodes t)]
  rw [bare_attR_lt hp (by rw [twoTraps_length]; omega), hb]

theorem addEdgeToFirst_ok {edges : List Edge} {endpoints : List Point} {nodes : Nodes} {e t : Nat}
    {r : Nodes × Nat × Nat} (ht : isLeaf nodes t = true) (h : addEdgeToFirst edges endpoints nodes e t = .ok r) :
    ∃ ur lr ul ll, r = (firstP edges endpoints nodes e t ur lr ul ll, nodes.length, nodes.length + 1) := by
  have htl := isLeaf_lt ht
  have hp : (Node.y e (nodes.length + 1) nodes.length).isInner = true := rfl
  rw [addEdgeToFirst_eq ht] at h
  obtain ⟨r1, h1, h⟩ := bind_ok h
  obtain ⟨r2, h2, h⟩ := bind_ok h
  obtain ⟨r3, h3, h⟩ := bind_ok h
  obtain ⟨r4, h4, h⟩ := bind_ok h
  obtain ⟨ul, ll, rfl⟩ := attachLeft_ok hp h1
  have hb : trapAt (twoTraps edges nodes e (edgeAt edges e).left (trapAt nodes t).right (trapAt nodes t)) t =
      trapAt nodes t := by
    rw [twoTraps_trapAt, if_neg (by omega), if_neg (by omega)]
  rw [hb] at h2 h4
  have g2 := maybeUR_ok h2
  have g3 := maybeLR_ok h3
  simp only at h4
  rw [link_append_inner (attL_pend_inner hp)] at g2
  rw [g2, link_append_inner (attL_pend_inner hp)] at g3
  rw [g3] at h4
  rw [replaceNode_append' (by simp only [link_length])] at h4
  cases h4
  cases h
  exact ⟨_, _, _, _, rfl⟩

/-- `extendAbove` in closed form. -/
def extA (edges : List Edge) (nodes : Nodes) (e t prev right : Nat) (ul : Option Nat) : Nodes × Nat :=
  if (trapAt nodes prev).above = (trapAt nodes t).above then
    (modTrap nodes prev fun a => { a with right := right }, prev)
  else
    (linkUL (linkLL (nodes ++ [.leaf (mkTrap edges (trapAt nodes t).left right e (trapAt nodes t).above)])
      nodes.length (some prev)) nodes.length ul, nodes.length)

/-- `extendBelow` in closed form. -/
def extB (edges : List Edge) (nodes : Nodes) (e t prev right : Nat) (ll : Option Nat) : Nodes × Nat :=
  if (trapAt nodes prev).below = (trapAt nodes t).below then
    (modTrap nodes prev fun a => { a with right := right }, prev)
  else
    (linkLL (linkUL (nodes ++ [.leaf (mkTrap edges (trapAt nodes t).left right (trapAt nodes t).below e)])
      nodes.length (some prev)) nodes.length ll, nodes.length)

theorem extendAbove_ok {edges : List Edge} {nodes : Nodes} {e t prev right : Nat} {r : Nodes × Nat}
    (h : extendAbove edges nodes e t prev right = .ok r) : ∃ ul, r = extA edges nodes e t prev right ul := by
  unfold extendAbove at h
  unfold extA
  split at h
  · next hc => cases h; exact ⟨none, by simp only [if_pos hc]⟩
  · next hc =>
    simp only [createTrapezoid_eq] at h
    obtain ⟨N1, h1, h⟩ := bind_ok h
    have g1 := maybeUL_ok h1
    cases h
    rw [g1]
    simp only [if_neg hc]
    exact ⟨_, rfl⟩

theorem extendBelow_ok {edges : List Edge} {nodes : Nodes} {e t prev right : Nat} {r : Nodes × Nat}
    (h : extendBelow edges nodes e t prev right = .ok r) : ∃ ll, r = extB edges nodes e t prev right ll := by
  unfold extendBelow at h
  unfold extB
  split at h
  · next hc => cases h; exact ⟨none, by simp only [if_pos hc]⟩
  · next hc =>
    simp only [createTrapezoid_eq] at h
    obtain ⟨N1, h1, h⟩ := bind_ok h
    have g1 := maybeLL_ok h1
    cases h
    rw [g1]
    simp only [if_neg hc]
    exact ⟨_, rfl⟩

/-- The nodes of `addEdgeToMiddle` and `addEdgeToLast` after both trapezoids are there, with their positions. -/
def extAB (edges : List Edge) (nodes : Nodes) (e t pa pb right : Nat) (ul ll : Option Nat) : Nodes × Nat × Nat :=
  let A := extA edges nodes e t pa right ul
  let B := extB edges A.1 e t pb right ll
  (B.1, A.2, B.2)

/-- `addEdgeToMiddle` in closed form. -/
def middleP (edges : List Edge) (nodes : Nodes) (e t pa pb : Nat) (ur lr ul ll : Option Nat) : Nodes × Nat × Nat :=
  let r := extAB edges nodes e t pa pb (trapAt nodes t).right ul ll
  ((linkLR (linkUR r.1 r.2.1 ur) r.2.2 lr).set t (.y e r.2.2 r.2.1), r.2.1, r.2.2)

/-- `addEdgeToLast` in closed form. -/
def lastP (edges : List Edge) (endpoints : List Point) (nodes : Nodes) (e t pa pb : Nat)
    (ur lr ul ll : Option Nat) : Nodes × Nat × Nat :=
  let r := extAB edges nodes e t pa pb (edgeAt edges e).right ul ll
  let R := attR edges endpoints r.1 (.y e r.2.2 r.2.1) e r.2.1 r.2.2 (trapAt nodes t) ur lr
  (R.1.set t R.2, r.2.1, r.2.2)

section ext
variable {edges : List Edge} {nodes : Nodes} {e t prev pa pb right : Nat} {o ul ll : Option Nat}

theorem bare_right (t : Trap) (r : Nat) : ({ t with right := r } : Trap).bare = { t.bare with right := r } := rfl

theorem extA_length : (extA edges nodes e t prev right o).1.length =
    if (trapAt nodes prev).above = (trapAt nodes t).above then nodes.length else nodes.length + 1 := by
  unfold extA; split <;> simp [link_length, modTrap_length]

theorem extA_inner (i : Nat) : inner (extA edges nodes e t prev right o).1 i = inner nodes i := by
  unfold extA; split <;> simp only [inner_modTrap, inner_link, inner_append_leaf]

theorem extA_isLeaf (i : Nat) : isLeaf (extA edges nodes e t prev right o).1 i =
    if (trapAt nodes prev).above = (trapAt nodes t).above then isLeaf nodes i
    else (decide (i = nodes.length) || isLeaf nodes i) := by
  unfold extA; split <;> simp only [isLeaf_modTrap, isLeaf_link, isLeaf_append_leaf]

theorem extA_bare (hp : isLeaf nodes prev = true) (i : Nat) : (trapAt (extA edges nodes e t prev right o).1 i).bare =
    if (trapAt nodes prev).above = (trapAt nodes t).above then
      (if i = prev then { (trapAt nodes prev).bare with right := right } else (trapAt nodes i).bare)
    else if i = nodes.length then mkTrap edges (trapAt nodes t).left right e (trapAt nodes t).above
    else (trapAt nodes i).bare := by
  unfold extA
  split
  · simp only [trapAt_modTrap, hp, and_true]
    split <;> rfl
  · simp only [bare_link bare_UL bare_UR, bare_link bare_LL bare_LR, trapAt_append_leaf]
    split <;> rfl

theorem extA_snd : (extA edges nodes e t prev right o).2 =
    if (trapAt nodes prev).above = (trapAt nodes t).above then prev else nodes.length := by
  unfold extA; split <;> rfl

theorem extB_length : (extB edges nodes e t prev right o).1.length =
    if (trapAt nodes prev).below = (trapAt nodes t).below then nodes.length else nodes.length + 1 := by
  unfold extB; split <;> simp [link_length, modTrap_length]

theorem extB_inner (i : Nat) : inner (extB edges nodes e t prev right o).1 i = inner nodes i := by
  unfold extB; split <;> simp only [inner_modTrap, inner_link, inner_append_leaf]

theorem extB_isLeaf (i : Nat) : isLeaf (extB edges nodes e t prev right o).1 i =
    if (trapAt nodes prev).below = (trapAt nodes t).below then isLeaf nodes i
    else (decide (i = nodes.length) || isLeaf nodes i) := by
  unfold extB; split <;> simp only [isLeaf_modTrap, isLeaf_link, isLeaf_append_leaf]

theorem extB_bare (hp : isLeaf nodes prev = true) (i : Nat) : (trapAt (extB edges nodes e t prev right o).1 i).bare =
    if (trapAt nodes prev).below = (trapAt nodes t).below then
      (if i = prev then { (trapAt nodes prev).bare with right := right } else (trapAt nodes i).bare)
    else if i = nodes.length then mkTrap edges (trapAt nodes t).left right (trapAt nodes t).below e
    else (trapAt nodes i).bare := by
  unfold extB
  split
  · simp only [trapAt_modTrap, hp, and_true]
    split <;> rfl
  · simp only [bare_link bare_UL bare_UR, bare_link bare_LL bare_LR, trapAt_append_leaf]
    split <;> rfl

theorem extB_snd : (extB edges nodes e t prev right o).2 =
    if (trapAt nodes prev).below = (trapAt nodes t).below then prev else nodes.length := by
  unfold extB; split <;> rfl
end ext

end Rene.Seidel
