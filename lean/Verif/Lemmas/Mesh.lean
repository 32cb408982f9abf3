import Verif.Model.Mesh
import Mathlib.Tactic.Ring
import Mathlib.Tactic.Linarith

/-! Invariants of the quad-edge mesh. -/

namespace Rene
namespace Mesh

theorem rot_lt {n e : Nat} (hn : 4 ∣ n) (h : e < n) : toRotatedEdge e < n := by
  unfold toRotatedEdge; omega

theorem opp_lt {n e : Nat} (hn : 4 ∣ n) (h : e < n) : toOppositeEdge e < n := by
  unfold toOppositeEdge; omega

theorem rot_par (e : Nat) : toRotatedEdge e % 2 = (e + 1) % 2 := by unfold toRotatedEdge; omega

theorem opp_par (e : Nat) : toOppositeEdge e % 2 = e % 2 := by unfold toOppositeEdge; omega

theorem rot_inj {a b : Nat} (h : toRotatedEdge a = toRotatedEdge b) : a = b := by
  unfold toRotatedEdge at h; omega

theorem opp_opp (e : Nat) : toOppositeEdge (toOppositeEdge e) = e := by unfold toOppositeEdge; omega

theorem opp_ne (e : Nat) : toOppositeEdge e ≠ e := by unfold toOppositeEdge; omega

theorem rot_rot (e : Nat) : toRotatedEdge (toRotatedEdge e) = toOppositeEdge e := by
  unfold toOppositeEdge toRotatedEdge; omega

theorem rot_opp (e : Nat) : toRotatedEdge (toOppositeEdge e) = toOppositeEdge (toRotatedEdge e) := by
  unfold toOppositeEdge toRotatedEdge; omega

theorem rot_opp_rot (e : Nat) : toRotatedEdge (toOppositeEdge (toRotatedEdge e)) = e := by
  unfold toOppositeEdge toRotatedEdge; omega

/-- The quad-edge structure. -/
structure Quad (m : Mesh) : Prop where
  four : 4 ∣ m.leftFromStart.length
  starts : 2 * m.startsIndices.length = m.leftFromStart.length
  lt : ∀ e < m.leftFromStart.length, m.toLeftFromStart e < m.leftFromStart.length
  par : ∀ e < m.leftFromStart.length, m.toLeftFromStart e % 2 = e % 2
  inv : ∀ e < m.leftFromStart.length,
    toRotatedEdge (m.toLeftFromStart (toRotatedEdge (m.toLeftFromStart e))) = e

/-- The edges around a vertex start there. -/
def Around (m : Mesh) : Prop := ∀ e < m.leftFromStart.length, e % 2 = 0 →
  m.toStartIndex (m.toLeftFromStart e) = m.toStartIndex e

/-- No edge joins a vertex with itself. -/
def NoLoop (m : Mesh) : Prop := ∀ e < m.leftFromStart.length, e % 2 = 0 → m.toStartIndex e ≠ m.toEndIndex e

/-- All vertices of edges are endpoints of the mesh. -/
def InRange (m : Mesh) : Prop := ∀ i ∈ m.startsIndices, i < m.endpoints.length

variable {m : Mesh} {a b e : Nat}

theorem Quad.left_inj (q : Quad m) (ha : a < m.leftFromStart.length) (hb : b < m.leftFromStart.length)
    (h : m.toLeftFromStart a = m.toLeftFromStart b) : a = b := by
  rw [← q.inv a ha, ← q.inv b hb, h]

theorem Quad.right_left (q : Quad m) (he : e < m.leftFromStart.length) :
    m.toRightFromStart (m.toLeftFromStart e) = e := q.inv e he

theorem Quad.right_lt (q : Quad m) (he : e < m.leftFromStart.length) :
    m.toRightFromStart e < m.leftFromStart.length := rot_lt q.four (q.lt _ (rot_lt q.four he))

theorem Quad.left_right (q : Quad m) (he : e < m.leftFromStart.length) :
    m.toLeftFromStart (m.toRightFromStart e) = e := by
  have := q.inv _ (rot_lt q.four he)
  exact rot_inj this

theorem Quad.right_par (q : Quad m) (he : e < m.leftFromStart.length) :
    m.toRightFromStart e % 2 = e % 2 := by
  unfold toRightFromStart
  rw [rot_par]
  have := q.par _ (rot_lt q.four he)
  have := rot_par e
  omega

theorem leftFromEnd_eq (m : Mesh) (e : Nat) : m.toLeftFromEnd e = m.toRightFromStart (toOppositeEdge e) := by
  unfold toLeftFromEnd toRightFromStart
  rw [rot_opp]

theorem splice_length (m : Mesh) (a b : Nat) :
    (m.spliceEdges a b).leftFromStart.length = m.leftFromStart.length := by
  simp [spliceEdges]

theorem splice_starts (m : Mesh) (a b : Nat) : (m.spliceEdges a b).startsIndices = m.startsIndices := rfl

theorem splice_endpoints (m : Mesh) (a b : Nat) : (m.spliceEdges a b).endpoints = m.endpoints := rfl

theorem splice_startIndex (m : Mesh) (a b e : Nat) :
    (m.spliceEdges a b).toStartIndex e = m.toStartIndex e := rfl

theorem splice_endIndex (m : Mesh) (a b e : Nat) :
    (m.spliceEdges a b).toEndIndex e = m.toEndIndex e := rfl

theorem getD_set (l : List Nat) (i j v : Nat) (hi : i < l.length) :
    (l.set i v).getD j 0 = if j = i then v else l.getD j 0 := by
  rw [List.getD_eq_getElem?_getD, List.getElem?_set, List.getD_eq_getElem?_getD]
  by_cases h : i = j
  · subst h; simp [hi]
  · simp [h, Ne.symm h]

/-- What a splice does with the successors. -/
theorem Quad.splice_left (q : Quad m) (ha : a < m.leftFromStart.length) (hb : b < m.leftFromStart.length)
    (hp : a % 2 = b % 2) (x : Nat) :
    (m.spliceEdges a b).toLeftFromStart x =
      if x = a then m.toLeftFromStart b else if x = b then m.toLeftFromStart a
      else if x = toRotatedEdge (m.toLeftFromStart a) then
        m.toLeftFromStart (toRotatedEdge (m.toLeftFromStart b))
      else if x = toRotatedEdge (m.toLeftFromStart b) then
        m.toLeftFromStart (toRotatedEdge (m.toLeftFromStart a))
      else m.toLeftFromStart x := by
  set α := toRotatedEdge (m.toLeftFromStart a) with hα
  set β := toRotatedEdge (m.toLeftFromStart b) with hβ
  have lα : α < m.leftFromStart.length := rot_lt q.four (q.lt a ha)
  have lβ : β < m.leftFromStart.length := rot_lt q.four (q.lt b hb)
  have pα : α % 2 ≠ a % 2 := by have := rot_par (m.toLeftFromStart a); have := q.par a ha; omega
  have pβ : β % 2 ≠ a % 2 := by have := rot_par (m.toLeftFromStart b); have := q.par b hb; omega
  have h1 : ∀ y, ((m.leftFromStart.set a (m.toLeftFromStart b)).set b (m.toLeftFromStart a)).getD y 0
      = if y = b then m.toLeftFromStart a else if y = a then m.toLeftFromStart b
        else m.toLeftFromStart y := by
    intro y
    rw [getD_set _ _ _ _ (by simpa using hb), getD_set _ _ _ _ ha]; rfl
  show List.getD (((_ : List Nat).set α _).set β _) x 0 = _
  rw [getD_set _ _ _ _ (by simpa using lβ), getD_set _ _ _ _ (by simpa using lα)]
  have h2 : ∀ y, Mesh.toLeftFromStart { m with leftFromStart :=
      (m.leftFromStart.set a (m.toLeftFromStart b)).set b (m.toLeftFromStart a) } y
      = if y = b then m.toLeftFromStart a else if y = a then m.toLeftFromStart b
        else m.toLeftFromStart y := h1
  rw [h2 _, h2 _, h1 x, ← hα, ← hβ]
  grind

/-- Splicing keeps the structure. -/
theorem Quad.splice (q : Quad m) (ha : a < m.leftFromStart.length) (hb : b < m.leftFromStart.length)
    (hp : a % 2 = b % 2) : Quad (m.spliceEdges a b) := by
  set α := toRotatedEdge (m.toLeftFromStart a) with hα
  set β := toRotatedEdge (m.toLeftFromStart b) with hβ
  have lα : α < m.leftFromStart.length := rot_lt q.four (q.lt a ha)
  have lβ : β < m.leftFromStart.length := rot_lt q.four (q.lt b hb)
  have pα : α % 2 ≠ a % 2 := by have := rot_par (m.toLeftFromStart a); have := q.par a ha; omega
  have pβ : β % 2 ≠ a % 2 := by have := rot_par (m.toLeftFromStart b); have := q.par b hb; omega
  have iα : toRotatedEdge (m.toLeftFromStart α) = a := q.inv a ha
  have iβ : toRotatedEdge (m.toLeftFromStart β) = b := q.inv b hb
  have sl := q.splice_left ha hb hp
  rw [← hα, ← hβ] at sl
  refine ⟨by rw [splice_length]; exact q.four, by rw [splice_length]; exact q.starts, ?_, ?_, ?_⟩
  · intro x hx
    rw [splice_length] at hx ⊢
    rw [sl]
    split_ifs
    · exact q.lt b hb
    · exact q.lt a ha
    · exact q.lt β lβ
    · exact q.lt α lα
    · exact q.lt x hx
  · intro x hx
    rw [splice_length] at hx
    rw [sl]
    have := q.par b hb; have := q.par a ha; have := q.par α lα; have := q.par β lβ; have := q.par x hx
    split_ifs <;> omega
  · intro x hx
    rw [splice_length] at hx
    by_cases e1 : x = a
    · subst e1
      rw [sl x, if_pos rfl, ← hβ, sl β]
      have : β ≠ b := by omega
      have : β ≠ x := by omega
      rw [if_neg ‹β ≠ x›, if_neg ‹β ≠ b›]
      by_cases e : β = α
      · rw [if_pos e, e]; exact iα
      · rw [if_neg e, if_pos rfl]; exact iα
    · by_cases e2 : x = b
      · subst e2
        rw [sl x, if_neg e1, if_pos rfl, ← hα, sl α]
        have h1 : α ≠ a := by omega
        have h2 : α ≠ x := by omega
        rw [if_neg h1, if_neg h2, if_pos rfl]; exact iβ
      · by_cases e3 : x = α
        · rw [sl x, if_neg e1, if_neg e2, if_pos e3, iβ, sl b, if_pos rfl]
          by_cases e : b = a
          · rw [if_pos e, e3, hα, e]
          · rw [if_neg e, e3, hα]
        · by_cases e4 : x = β
          · rw [sl x, if_neg e1, if_neg e2, if_neg e3, if_pos e4, iα, sl a, if_pos rfl, e4, hβ]
          · rw [sl x, if_neg e1, if_neg e2, if_neg e3, if_neg e4]
            set y := toRotatedEdge (m.toLeftFromStart x) with hy
            have iy : toRotatedEdge (m.toLeftFromStart y) = x := q.inv x hx
            have y1 : y ≠ a := by
              intro h; rw [h] at iy; exact e3 iy.symm
            have y2 : y ≠ b := by
              intro h; rw [h] at iy; exact e4 iy.symm
            have y3 : y ≠ α := by
              intro h; rw [h, iα] at iy; exact e1 iy.symm
            have y4 : y ≠ β := by
              intro h; rw [h, iβ] at iy; exact e2 iy.symm
            rw [sl y, if_neg y1, if_neg y2, if_neg y3, if_neg y4]; exact iy

theorem Around.splice (r : Around m) (q : Quad m) (ha : a < m.leftFromStart.length)
    (hb : b < m.leftFromStart.length) (ea : a % 2 = 0) (eb : b % 2 = 0)
    (hs : m.toStartIndex a = m.toStartIndex b) : Around (m.spliceEdges a b) := by
  intro x hx ex
  rw [splice_length] at hx
  rw [splice_startIndex, splice_startIndex, q.splice_left ha hb (by omega)]
  have p1 := rot_par (m.toLeftFromStart a); have p2 := q.par a ha
  have p3 := rot_par (m.toLeftFromStart b); have p4 := q.par b hb
  split_ifs with h1 h2 h3 h4
  · rw [r b hb eb, h1, hs]
  · rw [r a ha ea, h2, hs]
  · omega
  · omega
  · exact r x hx ex

theorem create_length (m : Mesh) (s t : Nat) :
    (m.createEdge s t).1.leftFromStart.length = m.leftFromStart.length + 4 := by simp [createEdge]

theorem create_left (m : Mesh) (s t x : Nat) (hx : x < m.leftFromStart.length + 4) :
    (m.createEdge s t).1.toLeftFromStart x =
      if x < m.leftFromStart.length then m.toLeftFromStart x
      else if x = m.leftFromStart.length then x
      else if x = m.leftFromStart.length + 1 then m.leftFromStart.length + 3
      else if x = m.leftFromStart.length + 2 then x
      else m.leftFromStart.length + 1 := by
  simp only [createEdge, toLeftFromStart, List.getD_eq_getElem?_getD]
  by_cases h : x < m.leftFromStart.length
  · rw [if_pos h, List.getElem?_append_left h]
  · rw [if_neg h, List.getElem?_append_right (by omega)]
    obtain h | h | h | h : x = m.leftFromStart.length ∨ x = m.leftFromStart.length + 1 ∨
      x = m.leftFromStart.length + 2 ∨ x = m.leftFromStart.length + 3 := by omega
    · subst h; simp
    · subst h; simp
    · subst h; simp
    · subst h; simp

theorem create_start_old (q : Quad m) (s t : Nat) (he : e < m.leftFromStart.length) :
    (m.createEdge s t).1.toStartIndex e = m.toStartIndex e := by
  have := q.starts
  simp only [createEdge, toStartIndex, List.getD_eq_getElem?_getD]
  rw [List.getElem?_append_left (by omega)]

theorem create_end_old (q : Quad m) (s t : Nat) (he : e < m.leftFromStart.length) :
    (m.createEdge s t).1.toEndIndex e = m.toEndIndex e := create_start_old q s t (opp_lt q.four he)

theorem create_start_new (q : Quad m) (s t : Nat) :
    (m.createEdge s t).1.toStartIndex m.leftFromStart.length = s := by
  have := q.starts
  have e : m.leftFromStart.length / 2 = m.startsIndices.length := by omega
  simp [createEdge, toStartIndex, List.getD_eq_getElem?_getD, e]

theorem create_start_new2 (q : Quad m) (s t : Nat) :
    (m.createEdge s t).1.toStartIndex (m.leftFromStart.length + 2) = t := by
  have := q.starts
  have e : (m.leftFromStart.length + 2) / 2 = m.startsIndices.length + 1 := by omega
  simp [createEdge, toStartIndex, List.getD_eq_getElem?_getD, e]

theorem opp_new (q : Quad m) : toOppositeEdge m.leftFromStart.length = m.leftFromStart.length + 2 := by
  have := q.four; unfold toOppositeEdge; omega

theorem create_end_new (q : Quad m) (s t : Nat) :
    (m.createEdge s t).1.toEndIndex m.leftFromStart.length = t := by
  unfold toEndIndex; rw [opp_new q]; exact create_start_new2 q s t

theorem Quad.create (q : Quad m) (s t : Nat) : Quad (m.createEdge s t).1 := by
  have h4 := q.four
  have hn := create_length m s t
  refine ⟨by rw [hn]; omega, by rw [hn]; have := q.starts; simp [createEdge]; omega, ?_, ?_, ?_⟩
  · intro x hx
    rw [hn] at hx ⊢
    rw [create_left m s t x hx]
    split_ifs with h
    · have := q.lt x h; omega
    all_goals omega
  · intro x hx
    rw [hn] at hx
    rw [create_left m s t x hx]
    split_ifs with h
    · exact q.par x h
    all_goals omega
  · intro x hx
    rw [hn] at hx
    rw [create_left m s t x hx]
    by_cases h : x < m.leftFromStart.length
    · rw [if_pos h]
      have l1 := rot_lt h4 (q.lt x h)
      rw [create_left m s t _ (by omega), if_pos l1]
      exact q.inv x h
    · rw [if_neg h]
      have hr : ∀ k < 4, toRotatedEdge (m.leftFromStart.length + k) = m.leftFromStart.length + (k + 1) % 4 := by
        intro k hk; unfold toRotatedEdge; omega
      obtain h | h | h | h : x = m.leftFromStart.length ∨ x = m.leftFromStart.length + 1 ∨
        x = m.leftFromStart.length + 2 ∨ x = m.leftFromStart.length + 3 := by omega
      · subst h
        have := hr 0 (by omega)
        simp only [Nat.add_zero] at this
        rw [if_pos rfl, this, create_left m s t _ (by omega)]
        rw [if_neg (by omega), if_neg (by omega), if_pos (by omega), hr 3 (by omega)]
        simp
      · subst h
        rw [if_neg (by omega), if_pos rfl, hr 3 (by omega), create_left m s t _ (by omega)]
        rw [if_neg (by omega), if_pos (by omega), hr 0 (by omega)]
      · subst h
        rw [if_neg (by omega), if_neg (by omega), if_pos rfl, hr 2 (by omega), create_left m s t _ (by omega)]
        rw [if_neg (by omega), if_neg (by omega), if_neg (by omega), if_neg (by omega), hr 1 (by omega)]
      · subst h
        rw [if_neg (by omega), if_neg (by omega), if_neg (by omega), hr 1 (by omega),
          create_left m s t _ (by omega)]
        rw [if_neg (by omega), if_neg (by omega), if_neg (by omega), if_pos (by omega), hr 2 (by omega)]

theorem Around.create (r : Around m) (q : Quad m) (s t : Nat) : Around (m.createEdge s t).1 := by
  intro x hx ex
  rw [create_length] at hx
  rw [create_left m s t x hx]
  have := q.four
  split_ifs with h h1 h2 h3
  · rw [create_start_old q s t (q.lt x h), create_start_old q s t h]; exact r x h ex
  · rfl
  · omega
  · rfl
  · omega

theorem NoLoop.create (r : NoLoop m) (q : Quad m) {s t : Nat} (hs : s ≠ t) :
    NoLoop (m.createEdge s t).1 := by
  intro x hx ex
  rw [create_length] at hx
  have := q.four
  by_cases h : x < m.leftFromStart.length
  · rw [create_start_old q s t h, create_end_old q s t h]; exact r x h ex
  · obtain rfl | rfl : x = m.leftFromStart.length ∨ x = m.leftFromStart.length + 2 := by omega
    · rw [create_start_new q, create_end_new q]; exact hs
    · have : toOppositeEdge (m.leftFromStart.length + 2) = m.leftFromStart.length := by
        unfold toOppositeEdge; omega
      unfold toEndIndex
      rw [this, create_start_new q, create_start_new2 q]; exact hs.symm

theorem InRange.create (r : InRange m) {s t : Nat} (hs : s < m.endpoints.length)
    (ht : t < m.endpoints.length) : InRange (m.createEdge s t).1 := by
  intro i hi
  simp only [createEdge, List.mem_append, List.mem_cons, List.not_mem_nil, or_false] at hi ⊢
  rcases hi with h | h | h
  · exact r i h
  · subst h; exact hs
  · subst h; exact ht

theorem Quad.start_right (q : Quad m) (r : Around m) (he : e < m.leftFromStart.length) (ev : e % 2 = 0) :
    m.toStartIndex (m.toRightFromStart e) = m.toStartIndex e := by
  have h := r _ (q.right_lt he) (by rw [q.right_par he]; exact ev)
  rw [q.left_right he] at h
  exact h.symm

theorem Quad.start_leftFromEnd (q : Quad m) (r : Around m) (he : e < m.leftFromStart.length)
    (ev : e % 2 = 0) : m.toStartIndex (m.toLeftFromEnd e) = m.toEndIndex e := by
  rw [leftFromEnd_eq]
  exact q.start_right r (opp_lt q.four he) (by rw [opp_par]; exact ev)

theorem Quad.leftFromEnd_lt (q : Quad m) (he : e < m.leftFromStart.length) :
    m.toLeftFromEnd e < m.leftFromStart.length := by
  rw [leftFromEnd_eq]; exact q.right_lt (opp_lt q.four he)

theorem Quad.leftFromEnd_par (q : Quad m) (he : e < m.leftFromStart.length) :
    m.toLeftFromEnd e % 2 = e % 2 := by
  rw [leftFromEnd_eq, q.right_par (opp_lt q.four he), opp_par]

theorem Quad.rightFromEnd_lt (q : Quad m) (he : e < m.leftFromStart.length) :
    m.toRightFromEnd e < m.leftFromStart.length := q.lt _ (opp_lt q.four he)

theorem Quad.rightFromEnd_par (q : Quad m) (he : e < m.leftFromStart.length) :
    m.toRightFromEnd e % 2 = e % 2 := by
  unfold toRightFromEnd; rw [q.par _ (opp_lt q.four he), opp_par]

/-- The predecessor is characterised by the successor. -/
theorem Quad.right_eq_of_left (q : Quad m) {x : Nat} (hx : x < m.leftFromStart.length)
    (h : m.toLeftFromStart x = e) : m.toRightFromStart e = x := by
  rw [← h]; exact q.right_left hx

/-- The invariant of meshes. -/
structure Ok (m : Mesh) : Prop where
  quad : Quad m
  around : Around m
  range : InRange m

theorem InRange.start (r : InRange m) (q : Quad m) (he : e < m.leftFromStart.length) :
    m.toStartIndex e < m.endpoints.length := by
  have h := q.starts
  have hl : e / 2 < m.startsIndices.length := by omega
  have : m.toStartIndex e = m.startsIndices[e / 2] := by
    simp [toStartIndex, List.getD_eq_getElem?_getD, hl]
  rw [this]
  exact r _ (List.getElem_mem hl)

theorem Ok.splice (o : Ok m) (ha : a < m.leftFromStart.length) (hb : b < m.leftFromStart.length)
    (ea : a % 2 = 0) (eb : b % 2 = 0) (hs : m.toStartIndex a = m.toStartIndex b) :
    Ok (m.spliceEdges a b) :=
  ⟨o.quad.splice ha hb (by omega), o.around.splice o.quad ha hb ea eb hs, o.range⟩

theorem NoLoop.splice (r : NoLoop m) (a b : Nat) : NoLoop (m.spliceEdges a b) := by
  intro x hx ex
  rw [splice_length] at hx
  exact r x hx ex

theorem Ok.create (o : Ok m) {s t : Nat} (hs : s < m.endpoints.length) (ht : t < m.endpoints.length) :
    Ok (m.createEdge s t).1 :=
  ⟨o.quad.create s t, o.around.create o.quad s t, o.range.create hs ht⟩

theorem right_congr {m' : Mesh} (h : m'.toLeftFromStart (toRotatedEdge e) = m.toLeftFromStart (toRotatedEdge e)) :
    m'.toRightFromStart e = m.toRightFromStart e := by unfold toRightFromStart; rw [h]

theorem create_right_old (q : Quad m) (s t : Nat) (he : e < m.leftFromStart.length) :
    (m.createEdge s t).1.toRightFromStart e = m.toRightFromStart e := by
  refine right_congr ?_
  have := rot_lt q.four he
  rw [create_left m s t _ (by omega), if_pos this]

theorem create_leftFromEnd_old (q : Quad m) (s t : Nat) (he : e < m.leftFromStart.length) :
    (m.createEdge s t).1.toLeftFromEnd e = m.toLeftFromEnd e := by
  rw [leftFromEnd_eq, leftFromEnd_eq]; exact create_right_old q s t (opp_lt q.four he)

/-- A splice of even edges, seen on even edges. -/
theorem Quad.splice_even (q : Quad m) (ha : a < m.leftFromStart.length) (hb : b < m.leftFromStart.length)
    (ea : a % 2 = 0) (eb : b % 2 = 0) {x : Nat} (ex : x % 2 = 0) :
    (m.spliceEdges a b).toLeftFromStart x =
      if x = a then m.toLeftFromStart b else if x = b then m.toLeftFromStart a else m.toLeftFromStart x := by
  rw [q.splice_left ha hb (by omega)]
  have p1 := rot_par (m.toLeftFromStart a); have p2 := q.par a ha
  have p3 := rot_par (m.toLeftFromStart b); have p4 := q.par b hb
  split_ifs with h1 h2 h3 h4
  · rfl
  · rfl
  · omega
  · omega
  · rfl

theorem connect_snd (m : Mesh) (a b : Nat) : (m.connectEdges a b).2 = m.leftFromStart.length := rfl

theorem connect_length (m : Mesh) (a b : Nat) :
    (m.connectEdges a b).1.leftFromStart.length = m.leftFromStart.length + 4 := by
  simp only [connectEdges]
  rw [splice_length, splice_length, create_length]

theorem connect_endpoints (m : Mesh) (a b : Nat) : (m.connectEdges a b).1.endpoints = m.endpoints := rfl

/-- Connecting two edges. -/
theorem Ok.connect (o : Ok m) (ha : a < m.leftFromStart.length) (hb : b < m.leftFromStart.length)
    (ea : a % 2 = 0) (eb : b % 2 = 0) : Ok (m.connectEdges a b).1 := by
  have q := o.quad
  have h4 := q.four
  set s := m.toEndIndex a with hs
  set t := m.toStartIndex b with ht
  have o1 : Ok (m.createEdge s t).1 := o.create (o.range.start q (opp_lt h4 ha)) (o.range.start q hb)
  have n1 := create_length m s t
  have la := create_leftFromEnd_old q s t ha
  have la1 := q.leftFromEnd_lt ha
  have la2 := q.leftFromEnd_par ha
  have o2 : Ok ((m.createEdge s t).1.spliceEdges m.leftFromStart.length
      ((m.createEdge s t).1.toLeftFromEnd a)) := by
    refine o1.splice (by omega) (by rw [la]; omega) (by omega) (by rw [la]; omega) ?_
    rw [create_start_new q, la, create_start_old q s t la1, q.start_leftFromEnd o.around ha ea]
  refine o2.splice ?_ ?_ ?_ eb ?_
  · rw [splice_length, n1]; show toOppositeEdge m.leftFromStart.length < _; rw [opp_new q]; omega
  · rw [splice_length, n1]; omega
  · rw [opp_par]; show m.leftFromStart.length % 2 = 0; omega
  · show Mesh.toStartIndex (m.createEdge s t).1 (toOppositeEdge m.leftFromStart.length) =
      Mesh.toStartIndex (m.createEdge s t).1 b
    rw [opp_new q, create_start_new2 q, create_start_old q s t hb]

theorem NoLoop.connect (r : NoLoop m) (q : Quad m) (h : m.toEndIndex a ≠ m.toStartIndex b) :
    NoLoop (m.connectEdges a b).1 := ((r.create q h).splice _ _).splice _ _

/-- What connecting two edges does with the successors. -/
theorem Ok.connect_left (o : Ok m) (ha : a < m.leftFromStart.length) (hb : b < m.leftFromStart.length)
    (ea : a % 2 = 0) (eb : b % 2 = 0) {x : Nat} (ex : x % 2 = 0) :
    (m.connectEdges a b).1.toLeftFromStart x =
      if x = b then m.leftFromStart.length + 2
      else if x = m.leftFromStart.length + 2 then
        (if b = m.toLeftFromEnd a then m.leftFromStart.length else m.toLeftFromStart b)
      else if x = m.leftFromStart.length then toOppositeEdge a
      else if x = m.toLeftFromEnd a then m.leftFromStart.length
      else (m.createEdge 0 0).1.toLeftFromStart x := by
  have q := o.quad
  have h4 := q.four
  set s := m.toEndIndex a with hs
  set t := m.toStartIndex b with ht
  have q1 : Quad (m.createEdge s t).1 := q.create s t
  have n1 := create_length m s t
  have la := create_leftFromEnd_old q s t ha
  have la1 := q.leftFromEnd_lt ha
  have la2 := q.leftFromEnd_par ha
  set d := m.toLeftFromEnd a with hd
  have q2 : Quad ((m.createEdge s t).1.spliceEdges m.leftFromStart.length d) :=
    q1.splice (by omega) (by omega) (by omega)
  have e1 : (m.connectEdges a b).1 = ((m.createEdge s t).1.spliceEdges m.leftFromStart.length d).spliceEdges
      (m.leftFromStart.length + 2) b := by
    show (((m.createEdge s t).1.spliceEdges m.leftFromStart.length
      ((m.createEdge s t).1.toLeftFromEnd a)).spliceEdges (toOppositeEdge m.leftFromStart.length) b) = _
    rw [la, opp_new q]
  rw [e1, q2.splice_even (by rw [splice_length, n1]; omega) (by rw [splice_length, n1]; omega) (by omega) eb ex]
  have k : ∀ y, y % 2 = 0 → ((m.createEdge s t).1.spliceEdges m.leftFromStart.length d).toLeftFromStart y
      = if y = m.leftFromStart.length then (m.createEdge s t).1.toLeftFromStart d
        else if y = d then (m.createEdge s t).1.toLeftFromStart m.leftFromStart.length
        else (m.createEdge s t).1.toLeftFromStart y := fun y hy =>
    q1.splice_even (by omega) (by omega) (by omega) (by omega) hy
  have k1 : (m.createEdge s t).1.toLeftFromStart d = toOppositeEdge a := by
    rw [create_left m s t d (by omega), if_pos la1, hd, leftFromEnd_eq, q.left_right (opp_lt h4 ha)]
  have k2 : (m.createEdge s t).1.toLeftFromStart m.leftFromStart.length = m.leftFromStart.length := by
    rw [create_left m s t _ (by omega), if_neg (by omega), if_pos rfl]
  have k3 : (m.createEdge s t).1.toLeftFromStart (m.leftFromStart.length + 2) = m.leftFromStart.length + 2 := by
    rw [create_left m s t _ (by omega), if_neg (by omega), if_neg (by omega), if_neg (by omega), if_pos rfl]
  have k4 : (m.createEdge s t).1.toLeftFromStart b = m.toLeftFromStart b := by
    rw [create_left m s t _ (by omega), if_pos hb]
  have k5 : (m.createEdge 0 0).1.toLeftFromStart x = (m.createEdge s t).1.toLeftFromStart x := rfl
  rw [k b eb, k (m.leftFromStart.length + 2) (by omega), k x ex, k1, k2, k3, k4, k5]
  have : m.leftFromStart.length + 2 ≠ d := by omega
  have : m.leftFromStart.length + 2 ≠ m.leftFromStart.length := by omega
  have : m.leftFromStart.length ≠ d := by omega
  have : b ≠ m.leftFromStart.length := by omega
  have : b ≠ m.leftFromStart.length + 2 := by omega
  grind

/-- Splicing an edge with its predecessor takes it out of its ring. -/
theorem Quad.isolate (q : Quad m) (he : e < m.leftFromStart.length) (ev : e % 2 = 0) {x : Nat}
    (hx : x < m.leftFromStart.length) (ex : x % 2 = 0) :
    (m.spliceEdges e (m.toRightFromStart e)).toLeftFromStart x =
      if x = e then e else if m.toLeftFromStart x = e then m.toLeftFromStart e else m.toLeftFromStart x := by
  rw [q.splice_even he (q.right_lt he) ev (by rw [q.right_par he]; exact ev) ex, q.left_right he]
  have h1 : x = m.toRightFromStart e ↔ m.toLeftFromStart x = e := by
    constructor
    · intro h; rw [h, q.left_right he]
    · intro h; rw [← h, q.right_left hx]
  by_cases h : x = e
  · rw [if_pos h, if_pos h]
  · rw [if_neg h, if_neg h]
    by_cases h2 : m.toLeftFromStart x = e
    · rw [if_pos h2, if_pos (h1.mpr h2)]
    · rw [if_neg h2, if_neg (fun h3 => h2 (h1.mp h3))]

theorem Ok.isolate (o : Ok m) (he : e < m.leftFromStart.length) (ev : e % 2 = 0) :
    Ok (m.spliceEdges e (m.toRightFromStart e)) :=
  o.splice he (o.quad.right_lt he) ev (by rw [o.quad.right_par he]; exact ev)
    (o.quad.start_right o.around he ev).symm

theorem delete_length (m : Mesh) (e : Nat) :
    (m.deleteEdge e).leftFromStart.length = m.leftFromStart.length := by
  simp only [deleteEdge]; rw [splice_length, splice_length]

theorem delete_starts (m : Mesh) (e : Nat) : (m.deleteEdge e).startsIndices = m.startsIndices := rfl

theorem delete_endpoints (m : Mesh) (e : Nat) : (m.deleteEdge e).endpoints = m.endpoints := rfl

theorem Ok.delete (o : Ok m) (he : e < m.leftFromStart.length) (ev : e % 2 = 0) : Ok (m.deleteEdge e) := by
  refine (o.isolate he ev).isolate (e := toOppositeEdge e) ?_ ?_
  · rw [splice_length]; exact opp_lt o.quad.four he
  · rw [opp_par]; exact ev

theorem NoLoop.delete (r : NoLoop m) (e : Nat) : NoLoop (m.deleteEdge e) := (r.splice _ _).splice _ _

/-- What deleting an edge does with the successors. -/
theorem Ok.delete_left (o : Ok m) (he : e < m.leftFromStart.length) (ev : e % 2 = 0)
    (hl : m.toStartIndex e ≠ m.toEndIndex e) {x : Nat} (hx : x < m.leftFromStart.length) (ex : x % 2 = 0) :
    (m.deleteEdge e).toLeftFromStart x =
      if x = e ∨ x = toOppositeEdge e then x
      else if m.toLeftFromStart x = e then m.toLeftFromStart e
      else if m.toLeftFromStart x = toOppositeEdge e then m.toLeftFromStart (toOppositeEdge e)
      else m.toLeftFromStart x := by
  have q := o.quad
  have o1 := o.isolate he ev
  have lo := opp_lt q.four he
  have po : toOppositeEdge e % 2 = 0 := by rw [opp_par]; exact ev
  have k1 := fun (y : Nat) hy hy2 => q.isolate he ev (x := y) hy hy2
  have k2 := o1.quad.isolate (e := toOppositeEdge e) (by rw [splice_length]; exact lo) po (x := x)
    (by rw [splice_length]; exact hx) ex
  show ((m.spliceEdges e (m.toRightFromStart e)).spliceEdges (toOppositeEdge e)
    ((m.spliceEdges e (m.toRightFromStart e)).toRightFromStart (toOppositeEdge e))).toLeftFromStart x = _
  rw [k2, k1 x hx ex, k1 _ lo po]
  have n1 := opp_ne e
  have n2 : m.toLeftFromStart e ≠ toOppositeEdge e := by
    intro h; have := o.around e he ev; rw [h] at this; exact hl this.symm
  have n3 : m.toLeftFromStart (toOppositeEdge e) ≠ e := by
    intro h; have := o.around _ lo po; rw [h] at this; exact hl this
  have n4 : ∀ y, m.toLeftFromStart x = y → y = x → m.toLeftFromStart x = x := by
    intro y h1 h2; rw [h1, h2]
  by_cases c1 : x = toOppositeEdge e
  · rw [if_pos c1, if_pos (Or.inr c1), c1]
  · rw [if_neg c1]
    by_cases c2 : x = e
    · rw [if_pos c2, if_pos (Or.inl c2), if_neg (Ne.symm n1), c2]
    · rw [if_neg c2, if_neg (not_or.mpr ⟨c2, c1⟩), if_neg n1, if_neg n3]
      by_cases c3 : m.toLeftFromStart x = e
      · rw [if_pos c3, if_pos c3, if_neg n2]
      · rw [if_neg c3, if_neg c3]

/-- The mesh right before `swap_diagonal` assigns the vertices. -/
def swapped (m : Mesh) (edge : Nat) : Mesh :=
  let side := m.toRightFromStart edge
  let opposite := toOppositeEdge edge
  let oppositeSide := m.toRightFromStart opposite
  let m := m.spliceEdges edge side
  let m := m.spliceEdges opposite oppositeSide
  let m := m.spliceEdges edge (m.toLeftFromEnd side)
  m.spliceEdges opposite (m.toLeftFromEnd oppositeSide)

/-- The last steps of `swap_diagonal`. -/
def assign (m : Mesh) (i j side oppositeSide : Nat) : Mesh :=
  let m := { m with startsIndices := m.startsIndices.set i (m.toEndIndex side) }
  { m with startsIndices := m.startsIndices.set j (m.toEndIndex oppositeSide) }

/-- The assignment of the vertices in `swap_diagonal`. -/
def swapStarts (m : Mesh) (e : Nat) : List Nat :=
  let s1 := m.startsIndices.set (e / 2) (m.toEndIndex (m.toRightFromStart e))
  s1.set (toOppositeEdge e / 2)
    (s1.getD (toOppositeEdge (m.toRightFromStart (toOppositeEdge e)) / 2) 0)

theorem swapDiagonal_eq (m : Mesh) (e : Nat) :
    m.swapDiagonal e = { m.swapped e with startsIndices := m.swapStarts e } := by
  have h : (m.swapped e).startsIndices = m.startsIndices := by
    simp only [swapped]; rw [splice_starts, splice_starts, splice_starts, splice_starts]
  have h2 : m.swapDiagonal e = (m.swapped e).assign (e / 2) (toOppositeEdge e / 2)
    (m.toRightFromStart e) (m.toRightFromStart (toOppositeEdge e)) := by
    simp only [swapDiagonal, assign, swapped]
  rw [h2]
  generalize m.swapped e = X at h ⊢
  simp only [assign, swapStarts, toEndIndex, toStartIndex, h]

theorem swapped_length (m : Mesh) (e : Nat) : (m.swapped e).leftFromStart.length = m.leftFromStart.length := by
  simp only [swapped]; rw [splice_length, splice_length, splice_length, splice_length]

theorem swap_length (m : Mesh) (e : Nat) :
    (m.swapDiagonal e).leftFromStart.length = m.leftFromStart.length := by
  rw [swapDiagonal_eq]; exact swapped_length m e

theorem swapped_endpoints (m : Mesh) (e : Nat) : (m.swapped e).endpoints = m.endpoints := by
  simp only [swapped]; rw [splice_endpoints, splice_endpoints, splice_endpoints, splice_endpoints]

theorem swap_left (m : Mesh) (e x : Nat) :
    (m.swapDiagonal e).toLeftFromStart x = (m.swapped e).toLeftFromStart x := by
  rw [swapDiagonal_eq]; rfl

theorem swap_endpoints (m : Mesh) (e : Nat) : (m.swapDiagonal e).endpoints = m.endpoints := by
  rw [swapDiagonal_eq]; exact swapped_endpoints m e

/-- An edge whose diagonal can be swapped: it does not join a vertex with itself and is not alone at its
ends. -/
structure Swappable (m : Mesh) (e : Nat) : Prop where
  lt : e < m.leftFromStart.length
  even : e % 2 = 0
  loop : m.toStartIndex e ≠ m.toEndIndex e
  start : m.toLeftFromStart e ≠ e
  end_ : m.toLeftFromStart (toOppositeEdge e) ≠ toOppositeEdge e

theorem half_ne {x y : Nat} (hx : x % 2 = 0) (hy : y % 2 = 0) (h : x ≠ y) : x / 2 ≠ y / 2 := by omega

theorem Quad.right_ne (q : Quad m) (he : e < m.leftFromStart.length) (h : m.toLeftFromStart e ≠ e) :
    m.toRightFromStart e ≠ e := by
  intro h2; have := q.left_right he; rw [h2] at this; exact h this

/-- The vertices after `swap_diagonal`. -/
theorem Ok.swap_start (o : Ok m) (w : Swappable m e) {x : Nat} (ex : x % 2 = 0) :
    (m.swapDiagonal e).toStartIndex x =
      if x = e then m.toEndIndex (m.toRightFromStart e)
      else if x = toOppositeEdge e then m.toEndIndex (m.toRightFromStart (toOppositeEdge e))
      else m.toStartIndex x := by
  have q := o.quad
  have he := w.lt; have ev := w.even
  have lo := opp_lt q.four he
  have po : toOppositeEdge e % 2 = 0 := by rw [opp_par]; exact ev
  have hst := q.starts
  have n1 := opp_ne e
  have n2 := q.right_ne lo w.end_
  have n3 : toOppositeEdge (m.toRightFromStart (toOppositeEdge e)) ≠ e := by
    intro h; apply n2; conv_rhs => rw [← h]
    rw [opp_opp]
  have p3 : toOppositeEdge (m.toRightFromStart (toOppositeEdge e)) % 2 = 0 := by
    rw [opp_par, q.right_par lo]; exact po
  rw [swapDiagonal_eq]
  show List.getD (m.swapStarts e) (x / 2) 0 = _
  unfold swapStarts
  rw [getD_set _ _ _ _ (by simp only [List.length_set]; omega), getD_set _ _ _ _ (by omega),
    getD_set _ _ _ _ (by omega), if_neg (half_ne p3 ev n3)]
  by_cases c1 : x = e
  · rw [if_neg (half_ne ex po (by rw [c1]; exact Ne.symm n1)), if_pos (by rw [c1]), if_pos c1]
  · by_cases c2 : x = toOppositeEdge e
    · rw [if_pos (by rw [c2]), if_neg c1, if_pos c2]; rfl
    · rw [if_neg (half_ne ex po c2), if_neg (half_ne ex ev c1), if_neg c1, if_neg c2]; rfl

/-- The steps of `swap_diagonal`. -/
theorem Ok.swapped_left (o : Ok m) (w : Swappable m e) : Quad (m.swapped e) ∧
    ∃ d d', d < m.leftFromStart.length ∧ d' < m.leftFromStart.length ∧ d % 2 = 0 ∧ d' % 2 = 0 ∧
      d ≠ e ∧ d ≠ toOppositeEdge e ∧ d' ≠ e ∧ d' ≠ toOppositeEdge e ∧ d ≠ d' ∧
      (m.deleteEdge e).toLeftFromStart d = toOppositeEdge (m.toRightFromStart e) ∧
      (m.deleteEdge e).toLeftFromStart d' = toOppositeEdge (m.toRightFromStart (toOppositeEdge e)) ∧
      ∀ x, x % 2 = 0 → (m.swapped e).toLeftFromStart x =
        if x = e then toOppositeEdge (m.toRightFromStart e)
        else if x = toOppositeEdge e then toOppositeEdge (m.toRightFromStart (toOppositeEdge e))
        else if x = d then e else if x = d' then toOppositeEdge e
        else (m.deleteEdge e).toLeftFromStart x := by
  have q := o.quad
  have he := w.lt; have ev := w.even
  have lo := opp_lt q.four he
  have po : toOppositeEdge e % 2 = 0 := by rw [opp_par]; exact ev
  have n1 := opp_ne e
  set side := m.toRightFromStart e with hside
  set opp := toOppositeEdge e with hopp
  set oside := m.toRightFromStart opp with hoside
  have ls : side < m.leftFromStart.length := q.right_lt he
  have lso : oside < m.leftFromStart.length := q.right_lt lo
  have ps : side % 2 = 0 := by rw [hside, q.right_par he]; exact ev
  have pso : oside % 2 = 0 := by rw [hoside, q.right_par lo]; exact po
  have s1 : side ≠ e := q.right_ne he w.start
  have s2 : oside ≠ opp := q.right_ne lo w.end_
  have ss : m.toStartIndex side = m.toStartIndex e := q.start_right o.around he ev
  have sso : m.toStartIndex oside = m.toStartIndex opp := q.start_right o.around lo po
  have s3 : side ≠ opp := by intro h; rw [h] at ss; exact w.loop ss.symm
  have s4 : oside ≠ e := by intro h; rw [h] at sso; exact w.loop sso
  have s5 : side ≠ oside := by intro h; rw [h, sso] at ss; exact w.loop ss.symm
  have o1 := o.isolate he ev
  have m2e : (m.spliceEdges e side).spliceEdges opp oside = m.deleteEdge e := by
    have : (m.spliceEdges e side).toRightFromStart opp = oside := by
      refine o1.quad.right_eq_of_left (by rw [splice_length]; exact lso) ?_
      rw [q.isolate he ev lso pso, if_neg s4, q.left_right lo, if_neg n1]
    simp only [deleteEdge]
    rw [← hside, ← hopp, this]
  have o2 : Ok (m.deleteEdge e) := o.delete he ev
  have q2 := o2.quad
  have l2 := delete_length m e
  have dl := fun (x : Nat) hx ex => o.delete_left he ev w.loop (x := x) hx ex
  set M := m.deleteEdge e with hM
  have los : toOppositeEdge side < m.leftFromStart.length := opp_lt q.four ls
  have loso : toOppositeEdge oside < m.leftFromStart.length := opp_lt q.four lso
  set d := M.toLeftFromEnd side with hd
  have ld : d < m.leftFromStart.length := by rw [← l2]; exact q2.leftFromEnd_lt (by rw [l2]; exact ls)
  have pd : d % 2 = 0 := by rw [hd, q2.leftFromEnd_par (by rw [l2]; exact ls)]; exact ps
  have vd : M.toLeftFromStart d = toOppositeEdge side := by
    rw [hd, leftFromEnd_eq, q2.left_right (by rw [l2]; exact los)]
  have Me : M.toLeftFromStart e = e := by rw [dl e he ev, if_pos (Or.inl rfl)]
  have Mo : M.toLeftFromStart opp = opp := by rw [dl opp lo po, if_pos (Or.inr rfl)]
  have d1 : d ≠ e := by
    intro h; rw [h, Me] at vd; apply s3; rw [hopp, vd, opp_opp]
  have d2 : d ≠ opp := by
    intro h; rw [h, Mo] at vd; apply s1; rw [hopp] at vd
    have := congrArg toOppositeEdge vd; rw [opp_opp, opp_opp] at this; exact this.symm
  have q3 : Quad (M.spliceEdges e d) := q2.splice (by omega) (by omega) (by omega)
  have l3 : (M.spliceEdges e d).leftFromStart.length = m.leftFromStart.length := by rw [splice_length, l2]
  have v3 : ∀ x, x % 2 = 0 → (M.spliceEdges e d).toLeftFromStart x =
      if x = e then toOppositeEdge side else if x = d then e else M.toLeftFromStart x := by
    intro x ex
    rw [q2.splice_even (by omega) (by omega) ev pd ex, vd, Me]
  set d' := (M.spliceEdges e d).toLeftFromEnd oside with hd'
  have ld' : d' < m.leftFromStart.length := by rw [← l3]; exact q3.leftFromEnd_lt (by rw [l3]; exact lso)
  have pd' : d' % 2 = 0 := by rw [hd', q3.leftFromEnd_par (by rw [l3]; exact lso)]; exact pso
  have vd' : (M.spliceEdges e d).toLeftFromStart d' = toOppositeEdge oside := by
    rw [hd', leftFromEnd_eq, q3.left_right (by rw [l3]; exact loso)]
  have M3o : (M.spliceEdges e d).toLeftFromStart opp = opp := by
    rw [v3 opp po, if_neg n1, if_neg (Ne.symm d2), Mo]
  have oinj : ∀ {x y}, toOppositeEdge x = toOppositeEdge y → x = y := by
    intro x y h; rw [← opp_opp x, h, opp_opp]
  have d3 : d' ≠ opp := by
    intro h; rw [h, M3o] at vd'; rw [hopp] at vd'; exact s4 (oinj vd').symm
  have d4 : d' ≠ e := by
    intro h; rw [h, v3 e ev, if_pos rfl] at vd'; exact s5 (oinj vd')
  have d5 : d ≠ d' := by
    intro h; rw [← h, v3 d pd, if_neg d1, if_pos rfl] at vd'
    apply s2; rw [hopp, vd', opp_opp]
  have q4 : Quad ((M.spliceEdges e d).spliceEdges opp d') := q3.splice (by omega) (by omega) (by omega)
  have sw : m.swapped e = (M.spliceEdges e d).spliceEdges opp d' := by
    simp only [swapped]
    rw [← hside, ← hopp, ← hoside, m2e]
  refine ⟨by rw [sw]; exact q4, d, d', ld, ld', pd, pd', d1, d2, d4, d3, d5, vd, ?_, ?_⟩
  · rw [v3 d' pd', if_neg d4, if_neg (Ne.symm d5)] at vd'; exact vd'
  · intro x ex
    rw [sw, q3.splice_even (by omega) (by omega) po pd' ex, vd', M3o, v3 x ex]
    by_cases c1 : x = e
    · have c2 : x ≠ opp := by rw [c1]; exact Ne.symm n1
      have c3 : x ≠ d' := by rw [c1]; exact Ne.symm d4
      rw [if_neg c2, if_neg c3, if_pos c1, if_pos c1]
    · rw [if_neg c1, if_neg c1]
      by_cases c2 : x = opp
      · rw [if_pos c2, if_pos c2]
      · rw [if_neg c2, if_neg c2]
        by_cases c3 : x = d
        · rw [if_neg (by rw [c3]; exact d5), if_pos c3, if_pos c3]
        · rw [if_neg c3, if_neg c3]

theorem Ok.swap (o : Ok m) (w : Swappable m e) : Ok (m.swapDiagonal e) := by
  have q := o.quad
  have he := w.lt; have ev := w.even
  have lo := opp_lt q.four he
  have po : toOppositeEdge e % 2 = 0 := by rw [opp_par]; exact ev
  have o2 : Ok (m.deleteEdge e) := o.delete he ev
  have l2 := delete_length m e
  obtain ⟨q4, d, d', ld, ld', pd, pd', d1, d2, d3, d4, d5, vd, vd', v4⟩ := o.swapped_left w
  have st := fun (x : Nat) ex => o.swap_start w (x := x) ex
  have dl := fun (x : Nat) hx ex => o.delete_left he ev w.loop (x := x) hx ex
  set side := m.toRightFromStart e with hside
  set opp := toOppositeEdge e with hopp
  set oside := m.toRightFromStart opp with hoside
  have ls : side < m.leftFromStart.length := q.right_lt he
  have lso : oside < m.leftFromStart.length := q.right_lt lo
  have ps : side % 2 = 0 := by rw [hside, q.right_par he]; exact ev
  have pso : oside % 2 = 0 := by rw [hoside, q.right_par lo]; exact po
  have s1 : side ≠ e := q.right_ne he w.start
  have s2 : oside ≠ opp := q.right_ne lo w.end_
  have ss : m.toStartIndex side = m.toStartIndex e := q.start_right o.around he ev
  have sso : m.toStartIndex oside = m.toStartIndex opp := q.start_right o.around lo po
  have s3 : side ≠ opp := by intro h; rw [h] at ss; exact w.loop ss.symm
  have s4 : oside ≠ e := by intro h; rw [h] at sso; exact w.loop sso
  have oinj : ∀ {x y}, toOppositeEdge x = toOppositeEdge y → x = y := by
    intro x y h; rw [← opp_opp x, h, opp_opp]
  have e1 : toOppositeEdge side ≠ e := by intro h; apply s3; rw [hopp, ← h, opp_opp]
  have e2 : toOppositeEdge side ≠ opp := by intro h; exact s1 (oinj h)
  have e3 : toOppositeEdge oside ≠ e := by intro h; apply s2; rw [hopp, ← h, opp_opp]
  have e4 : toOppositeEdge oside ≠ opp := by intro h; exact s4 (oinj h)
  have pos : toOppositeEdge side % 2 = 0 := by rw [opp_par]; exact ps
  have poso : toOppositeEdge oside % 2 = 0 := by rw [opp_par]; exact pso
  have Me : (m.deleteEdge e).toLeftFromStart e = e := by rw [dl e he ev, if_pos (Or.inl rfl)]
  have Mo : (m.deleteEdge e).toLeftFromStart opp = opp := by rw [dl opp lo po, if_pos (Or.inr rfl)]
  refine ⟨⟨?_, ?_, ?_, ?_, ?_⟩, ?_, ?_⟩
  · rw [swap_length]; exact q.four
  · have h1 := q.starts
    rw [swap_length, swapDiagonal_eq]
    simp only [swapStarts, List.length_set]; exact h1
  · intro x hx
    rw [swap_length] at hx ⊢
    rw [swap_left, ← swapped_length m e]; exact q4.lt x (by rw [swapped_length]; exact hx)
  · intro x hx
    rw [swap_length] at hx
    rw [swap_left]; exact q4.par x (by rw [swapped_length]; exact hx)
  · intro x hx
    rw [swap_length] at hx
    rw [swap_left, swap_left]; exact q4.inv x (by rw [swapped_length]; exact hx)
  · intro x hx ex
    rw [swap_length] at hx
    rw [swap_left, v4 x ex, st x ex]
    by_cases c1 : x = e
    · rw [if_pos c1, if_pos c1, st _ pos, if_neg e1, if_neg e2]; rfl
    · rw [if_neg c1, if_neg c1]
      by_cases c2 : x = opp
      · rw [if_pos c2, if_pos c2, st _ poso, if_neg e3, if_neg e4]; rfl
      · rw [if_neg c2, if_neg c2]
        by_cases c3 : x = d
        · rw [if_pos c3, st e ev, if_pos rfl]
          have := o2.around d (by omega) pd
          rw [vd] at this
          rw [c3]; exact this
        · rw [if_neg c3]
          by_cases c4 : x = d'
          · rw [if_pos c4, st opp po, if_neg (opp_ne e), if_pos rfl]
            have := o2.around d' (by omega) pd'
            rw [vd'] at this
            rw [c4]; exact this
          · rw [if_neg c4]
            have hy := o2.around x (by omega) ex
            have yp : (m.deleteEdge e).toLeftFromStart x % 2 = 0 := by rw [o2.quad.par x (by omega)]; exact ex
            have y1 : (m.deleteEdge e).toLeftFromStart x ≠ e := by
              intro h; exact c1 (o2.quad.left_inj (by omega) (by omega) (h.trans Me.symm))
            have y2 : (m.deleteEdge e).toLeftFromStart x ≠ opp := by
              intro h; exact c2 (o2.quad.left_inj (by omega) (by omega) (h.trans Mo.symm))
            rw [st _ yp, if_neg y1, if_neg y2]; exact hy
  · intro i hi
    rw [swap_endpoints]
    rw [swapDiagonal_eq] at hi
    simp only [swapStarts] at hi
    have g1 : m.toEndIndex side < m.endpoints.length := o.range.start q (opp_lt q.four ls)
    rcases List.mem_or_eq_of_mem_set hi with h | h
    · rcases List.mem_or_eq_of_mem_set h with h | h
      · exact o.range i h
      · rw [h]; exact g1
    · rw [h]
      have hst := q.starts
      rw [getD_set _ _ _ _ (by omega)]
      split
      · exact g1
      · exact o.range.start q (opp_lt q.four lso)

theorem Ok.swap_noLoop (o : Ok m) (r : NoLoop m) (w : Swappable m e)
    (h : m.toEndIndex (m.toRightFromStart e) ≠ m.toEndIndex (m.toRightFromStart (toOppositeEdge e))) :
    NoLoop (m.swapDiagonal e) := by
  intro x hx ex
  rw [swap_length] at hx
  have ex' : toOppositeEdge x % 2 = 0 := by rw [opp_par]; exact ex
  unfold toEndIndex
  rw [o.swap_start w ex, o.swap_start w ex']
  by_cases c1 : x = e
  · rw [if_pos c1, c1, if_neg (opp_ne e), if_pos rfl]; exact h
  · rw [if_neg c1]
    by_cases c2 : x = toOppositeEdge e
    · rw [if_pos c2, c2, opp_opp, if_pos rfl]; exact h.symm
    · rw [if_neg c2, if_neg (fun h => c2 (by rw [← h, opp_opp])),
        if_neg (fun h => c1 (by rw [← opp_opp x, h, opp_opp]))]
      exact r x hx ex

end Mesh
end Rene
