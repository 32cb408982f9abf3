import Verif.Lemmas.Locate
import Verif.Lemmas.ContourSegments
import Verif.Model.ContourOps

/-! Location of a point in the region bounded by a closed chain: parity of ray crossings. -/

namespace Rene
open Spec

/-- Parity of the number of edges crossed by the ray. -/
def rayParity (p : Point) : List Segment → Bool
  | [] => false
  | e :: rest => crossesRay e.start e.end p ^^ rayParity p rest

theorem locateInEdges_spec (p : Point) (l : List Segment) : ∀ b : Bool,
    (p ∈ segsPts l → locateInEdges p b l = .boundary) ∧
    (p ∉ segsPts l → locateInEdges p b l = if b ^^ rayParity p l then .interior else .exterior) := by
  induction l with
  | nil =>
    intro b
    refine ⟨fun h => absurd h (by simp [segsPts_nil]), fun _ => ?_⟩
    cases b <;> simp [locateInEdges, rayParity]
  | cons e l ih =>
    intro b
    rw [segsPts_cons]
    simp only [locateInEdges, rayParity]
    by_cases he : p ∈ segPts e
    · rw [if_pos ((locatePointInSegment_iff _ _ _).mpr he)]
      simp [he]
    · rw [if_neg (fun h => he ((locatePointInSegment_iff _ _ _).mp h))]
      simp only [Set.mem_union, he, false_or]
      obtain ⟨i1, i2⟩ := ih (if crossesRay e.start e.end p then !b else b)
      refine ⟨i1, fun h => ?_⟩
      rw [i2 h]
      have hx : (if crossesRay e.start e.end p = true then !b else b) = (b ^^ crossesRay e.start e.end p) := by
        by_cases hc : crossesRay e.start e.end p = true
        · simp [hc]
        · simp [hc]
      rw [hx, Bool.xor_assoc]; rfl

theorem crossesRay_iff (a b p : Point) : crossesRay a b p = true ↔
    (a.y ≤ p.y ∧ p.y < b.y ∧ 0 < cr a b p) ∨ (b.y ≤ p.y ∧ p.y < a.y ∧ cr a b p ≤ 0) := by
  unfold crossesRay
  rw [Bool.and_eq_true, bne_iff_ne, ne_eq, decide_eq_decide, beq_iff_eq, decide_eq_decide, orient_ccw]
  constructor
  · rintro ⟨h1, h2⟩
    by_cases ha : a.y > p.y
    · have hb : ¬ b.y > p.y := fun hb => h1 (by simp [ha, hb])
      right
      refine ⟨not_lt.mp hb, ha, ?_⟩
      rw [← not_lt, ← h2]; intro h; linarith
    · have hb : b.y > p.y := by by_contra hb; exact h1 (by simp [ha, hb])
      left
      exact ⟨not_lt.mp ha, hb, h2.mp (by linarith)⟩
  · rintro (⟨h1, h2, h3⟩ | ⟨h1, h2, h3⟩)
    · exact ⟨fun h => absurd (h.mpr h2) (by linarith), by constructor <;> intro <;> linarith⟩
    · exact ⟨fun h => absurd (h.mp h2) (by linarith), by constructor <;> intro <;> linarith⟩

theorem mem_seg_of_y {p q x : Point} (h : p.y < q.y) (hc : cr p q x = 0) (h1 : p.y ≤ x.y)
    (h2 : x.y ≤ q.y) : x ∈ seg p q := by
  have hd : 0 < q.y - p.y := by linarith
  refine ⟨(x.y - p.y) / (q.y - p.y), div_nonneg (by linarith) hd.le, (div_le_one hd).mpr (by linarith), ?_⟩
  unfold cr at hc
  rw [Point.eq_iff]
  simp only [lerp]
  constructor
  · field_simp; linarith
  · field_simp; ring

theorem crossesRay_of_le {a b p : Point} (hab : a.y ≤ b.y) : crossesRay a b p = true ↔
    a.y ≤ p.y ∧ p.y < b.y ∧ 0 < cr a b p := by
  rw [crossesRay_iff]
  constructor
  · rintro (h | ⟨h1, h2, _⟩)
    · exact h
    · linarith
  · exact Or.inl

theorem crossesRay_swap {a b p : Point} (h : p ∉ seg a b) : crossesRay b a p = crossesRay a b p := by
  rw [Bool.eq_iff_iff, crossesRay_iff, crossesRay_iff, cr_swap12]
  have key : ∀ a b : Point, p ∉ seg a b → a.y ≤ p.y → p.y < b.y → cr a b p ≠ 0 := by
    intro a b h h1 h2 h3
    exact h (mem_seg_of_y (by linarith) h3 h1 h2.le)
  have h' : p ∉ seg b a := by rwa [seg_comm]
  constructor
  · rintro (⟨h1, h2, h3⟩ | ⟨h1, h2, h3⟩)
    · exact Or.inr ⟨h1, h2, by linarith⟩
    · refine Or.inl ⟨h1, h2, lt_of_le_of_ne (by linarith) (Ne.symm (key a b h h1 h2))⟩
  · rintro (⟨h1, h2, h3⟩ | ⟨h1, h2, h3⟩)
    · exact Or.inr ⟨h1, h2, by linarith⟩
    · have := key b a h' h1 h2
      rw [cr_swap12] at this
      exact Or.inl ⟨h1, h2, lt_of_le_of_ne (by linarith) (Ne.symm this)⟩

/-- The vertex `v` is in the half-strip to the right of `pq`, for `p.y ≤ q.y`. -/
def inStrip (p q v : Point) : Bool := decide (p.y < v.y ∧ v.y ≤ q.y ∧ cr p q v < 0)

theorem level_point {a b : Point} {h : ℚ} (h1 : a.y ≤ h) (h2 : h < b.y) : ∃ n ∈ seg a b, n.y = h ∧
    ∀ p : Point, p.y = h → (0 < cr a b p ↔ p.x < n.x) := by
  have hd : 0 < b.y - a.y := by linarith
  refine ⟨lerp a b ((h - a.y) / (b.y - a.y)), ⟨_, div_nonneg (by linarith) hd.le,
    (div_le_one hd).mpr (by linarith), rfl⟩, ?_, ?_⟩
  · simp only [lerp]; field_simp; ring
  · intro p hp
    have e : cr a b p = (b.y - a.y) * ((lerp a b ((h - a.y) / (b.y - a.y))).x - p.x) := by
      simp only [lerp, cr, hp]; field_simp; ring
    rw [e, mul_pos_iff_of_pos_left hd, sub_pos]

theorem strip_side {a b p q u v : Point} (hpq : p.y < q.y) (hd : Disjoint (seg a b) (seg p q))
    (hu : u ∈ seg a b) (hv : v ∈ seg a b) (u1 : p.y ≤ u.y) (u2 : u.y ≤ q.y) (v1 : p.y ≤ v.y)
    (v2 : v.y ≤ q.y) : cr p q u < 0 ↔ cr p q v < 0 := by
  have key : ∀ u v : Point, u ∈ seg a b → v ∈ seg a b → p.y ≤ u.y → u.y ≤ q.y → p.y ≤ v.y → v.y ≤ q.y →
      cr p q u < 0 → cr p q v < 0 := by
    intro u v hu hv u1 u2 v1 v2 h
    by_contra hn
    push Not at hn
    have hden : 0 < cr p q v - cr p q u := by linarith
    have ht0 : 0 ≤ - cr p q u / (cr p q v - cr p q u) := div_nonneg (by linarith) hden.le
    have ht1 : - cr p q u / (cr p q v - cr p q u) ≤ 1 := (div_le_one hden).mpr (by linarith)
    have hx : lerp u v (- cr p q u / (cr p q v - cr p q u)) ∈ seg a b :=
      lerp_mem_seg hu hv ⟨_, ht0, ht1, rfl⟩
    have hc : cr p q (lerp u v (- cr p q u / (cr p q v - cr p q u))) = 0 := by
      rw [cr_lerp]; field_simp; ring
    refine Set.disjoint_left.mp hd hx (mem_seg_of_y hpq hc ?_ ?_)
    · simp only [lerp]; nlinarith
    · simp only [lerp]; nlinarith
  exact ⟨key u v hu hv u1 u2 v1 v2, key v u hv hu v1 v2 u1 u2⟩

theorem jump_aux {a b p q : Point} (hpq : p.y ≤ q.y) (hab : a.y ≤ b.y)
    (hd : Disjoint (seg a b) (seg p q)) :
    (crossesRay a b p ^^ crossesRay a b q) = (inStrip p q a ^^ inStrip p q b) := by
  have cp := crossesRay_of_le (p := p) hab
  have cq := crossesRay_of_le (p := q) hab
  have fa : inStrip p q a = true ↔ p.y < a.y ∧ a.y ≤ q.y ∧ cr p q a < 0 := by simp [inStrip]
  have fb : inStrip p q b = true ↔ p.y < b.y ∧ b.y ≤ q.y ∧ cr p q b < 0 := by simp [inStrip]
  have sa := start_mem_seg a b
  have sb := end_mem_seg a b
  have pp := start_mem_seg p q
  have qq := end_mem_seg p q
  -- points of the edge at the heights of `p` and `q`
  have lp : a.y ≤ p.y → p.y < b.y → p.y < q.y → ∃ n ∈ seg a b, n.y = p.y ∧ (0 < cr a b p ↔ cr p q n < 0) := by
    intro h1 h2 h3
    obtain ⟨n, hn, e, h⟩ := level_point h1 h2
    refine ⟨n, hn, e, ?_⟩
    rw [h p rfl]
    have : cr p q n = - ((q.y - p.y) * (n.x - p.x)) := by unfold cr; rw [e]; ring
    rw [this, neg_lt_zero, mul_pos_iff_of_pos_left (by linarith), sub_pos]
  have lq : a.y ≤ q.y → q.y < b.y → p.y < q.y → ∃ n ∈ seg a b, n.y = q.y ∧ (0 < cr a b q ↔ cr p q n < 0) := by
    intro h1 h2 h3
    obtain ⟨n, hn, e, h⟩ := level_point h1 h2
    refine ⟨n, hn, e, ?_⟩
    rw [h q rfl]
    have : cr p q n = - ((q.y - p.y) * (n.x - q.x)) := by unfold cr; rw [e]; ring
    rw [this, neg_lt_zero, mul_pos_iff_of_pos_left (by linarith), sub_pos]
  rcases lt_or_eq_of_le hpq with hlt | heq
  · have side := fun u v hu hv => strip_side (u := u) (v := v) hlt hd hu hv
    by_cases a1 : a.y ≤ p.y
    · have fa' : inStrip p q a = false := by rw [Bool.eq_false_iff, ne_eq, fa]; intro h; linarith
      by_cases b1 : b.y ≤ p.y
      · have fb' : inStrip p q b = false := by rw [Bool.eq_false_iff, ne_eq, fb]; intro h; linarith
        have cp' : crossesRay a b p = false := by rw [Bool.eq_false_iff, ne_eq, cp]; intro h; linarith
        have cq' : crossesRay a b q = false := by rw [Bool.eq_false_iff, ne_eq, cq]; intro h; linarith
        rw [fa', fb', cp', cq']
      · push Not at b1
        obtain ⟨n, hn, en, hn'⟩ := lp a1 b1 hlt
        by_cases b2 : b.y ≤ q.y
        · have cq' : crossesRay a b q = false := by rw [Bool.eq_false_iff, ne_eq, cq]; intro h; linarith
          have : crossesRay a b p = inStrip p q b := by
            rw [Bool.eq_iff_iff, cp, fb]
            have := side n b hn sb en.ge (by linarith) b1.le b2
            rw [← this, ← hn']
            exact ⟨fun h => ⟨b1, b2, h.2.2⟩, fun h => ⟨a1, b1, h.2.2⟩⟩
          rw [fa', cq', this]; simp
        · push Not at b2
          obtain ⟨k, hk, ek, hk'⟩ := lq (by linarith) b2 hlt
          have fb' : inStrip p q b = false := by rw [Bool.eq_false_iff, ne_eq, fb]; intro h; linarith
          have : crossesRay a b p = crossesRay a b q := by
            rw [Bool.eq_iff_iff, cp, cq, hn', hk', side n k hn hk en.ge (by linarith) (by linarith) ek.le]
            exact ⟨fun h => ⟨by linarith, b2, h.2.2⟩, fun h => ⟨a1, b1, h.2.2⟩⟩
          rw [fa', fb', this]; simp
    · push Not at a1
      have cp' : crossesRay a b p = false := by rw [Bool.eq_false_iff, ne_eq, cp]; intro h; linarith
      by_cases a2 : a.y ≤ q.y
      · by_cases b2 : b.y ≤ q.y
        · have cq' : crossesRay a b q = false := by rw [Bool.eq_false_iff, ne_eq, cq]; intro h; linarith
          have : inStrip p q a = inStrip p q b := by
            rw [Bool.eq_iff_iff, fa, fb, side a b sa sb a1.le a2 (by linarith) b2]
            exact ⟨fun h => ⟨by linarith, b2, h.2.2⟩, fun h => ⟨a1, a2, h.2.2⟩⟩
          rw [cp', cq', this]; simp
        · push Not at b2
          obtain ⟨k, hk, ek, hk'⟩ := lq a2 b2 hlt
          have fb' : inStrip p q b = false := by rw [Bool.eq_false_iff, ne_eq, fb]; intro h; linarith
          have : crossesRay a b q = inStrip p q a := by
            rw [Bool.eq_iff_iff, cq, fa, hk', side k a hk sa (by linarith) ek.le a1.le a2]
            exact ⟨fun h => ⟨a1, a2, h.2.2⟩, fun h => ⟨a2, b2, h.2.2⟩⟩
          rw [cp', fb', this]; simp
      · have fa' : inStrip p q a = false := by rw [Bool.eq_false_iff, ne_eq, fa]; intro h; linarith
        have fb' : inStrip p q b = false := by rw [Bool.eq_false_iff, ne_eq, fb]; intro h; linarith
        have cq' : crossesRay a b q = false := by rw [Bool.eq_false_iff, ne_eq, cq]; intro h; linarith
        rw [fa', fb', cp', cq']
  · have fa' : inStrip p q a = false := by rw [Bool.eq_false_iff, ne_eq, fa]; intro h; linarith
    have fb' : inStrip p q b = false := by rw [Bool.eq_false_iff, ne_eq, fb]; intro h; linarith
    have : crossesRay a b p = crossesRay a b q := by
      rw [Bool.eq_iff_iff, cp, cq, ← heq]
      refine and_congr_right fun h1 => and_congr_right fun h2 => ?_
      obtain ⟨n, hn, e, h⟩ := level_point h1 h2
      rw [h p rfl, h q heq.symm]
      by_contra hne
      apply Set.disjoint_left.mp hd hn
      have hcr : cr p q n = 0 := by unfold cr; rw [e, ← heq]; ring
      -- `n` is between `p` and `q`
      have hx : (p.x ≤ n.x ∧ n.x ≤ q.x) ∨ (q.x ≤ n.x ∧ n.x ≤ p.x) := by
        by_cases c1 : p.x < n.x
        · left; exact ⟨c1.le, not_lt.mp fun c2 => hne (by simp [c1, c2])⟩
        · right
          refine ⟨?_, not_lt.mp c1⟩
          have : q.x < n.x := by
            by_contra c2; exact hne (by simp [c1, c2])
          exact this.le
      rw [mem_seg_iff, Point.le_iff, Point.le_iff, Point.le_iff, Point.le_iff]
      refine ⟨hcr, ?_⟩
      rcases hx with ⟨x1, x2⟩ | ⟨x1, x2⟩
      · left
        exact ⟨(lt_or_eq_of_le x1).imp id fun k => ⟨k, by linarith⟩,
          (lt_or_eq_of_le x2).imp id fun k => ⟨k, by linarith⟩⟩
      · right
        exact ⟨(lt_or_eq_of_le x1).imp id fun k => ⟨k, by linarith⟩,
          (lt_or_eq_of_le x2).imp id fun k => ⟨k, by linarith⟩⟩
    rw [fa', fb', this]; simp

theorem jump {a b p q : Point} (hpq : p.y ≤ q.y) (hd : Disjoint (seg a b) (seg p q)) :
    (crossesRay a b p ^^ crossesRay a b q) = (inStrip p q a ^^ inStrip p q b) := by
  rcases le_total a.y b.y with h | h
  · exact jump_aux hpq h hd
  · have hp : p ∉ seg a b := fun h => Set.disjoint_left.mp hd h (start_mem_seg p q)
    have hq : q ∉ seg a b := fun h => Set.disjoint_left.mp hd h (end_mem_seg p q)
    rw [← crossesRay_swap hp, ← crossesRay_swap hq, jump_aux hpq h (by rwa [seg_comm]), Bool.xor_comm]

/-- Parity of a Boolean function over a list of segments. -/
def xorSum (g : Segment → Bool) : List Segment → Bool
  | [] => false
  | e :: rest => g e ^^ xorSum g rest

theorem xorSum_congr {g h : Segment → Bool} {l : List Segment} (H : ∀ e ∈ l, g e = h e) :
    xorSum g l = xorSum h l := by
  induction l with
  | nil => rfl
  | cons e l ih =>
    simp only [xorSum]
    rw [H e List.mem_cons_self, ih (fun s hs => H s (List.mem_cons_of_mem _ hs))]

theorem xorSum_append (g : Segment → Bool) (l1 l2 : List Segment) :
    xorSum g (l1 ++ l2) = (xorSum g l1 ^^ xorSum g l2) := by
  induction l1 with
  | nil => simp [xorSum]
  | cons e l ih => simp only [List.cons_append, xorSum, ih, Bool.xor_assoc]

/-- Sum over a chain of a difference of vertex values. -/
theorem chain_xor (f : Point → Bool) : ∀ (v : Point) (vs : List Point),
    xorSum (fun e => f e.start ^^ f e.end) (consecutive (v :: vs)) =
      (f v ^^ f ((v :: vs).getLast (by simp))) := by
  intro v vs
  induction vs generalizing v with
  | nil => simp [consecutive, xorSum]
  | cons w vs ih =>
    have e' : consecutive (v :: w :: vs) = ⟨v, w⟩ :: consecutive (w :: vs) := rfl
    rw [e']
    simp only [xorSum]
    rw [ih w]
    simp only [List.getLast_cons_cons]
    cases f v <;> cases f w <;> simp

/-- The sum over a contour vanishes. -/
theorem contour_xor (f : Point → Bool) (vs : List Point) :
    xorSum (fun e => f e.start ^^ f e.end) (toContourSegments vs) = false := by
  cases vs with
  | nil => rfl
  | cons v vs =>
    rw [toContourSegments_eq]
    have := chain_xor f v (vs ++ [v])
    rw [show v :: vs ++ [v] = v :: (vs ++ [v]) from rfl, this]
    simp

theorem rayParity_xor (p q : Point) (l : List Segment) : (rayParity p l ^^ rayParity q l) =
    xorSum (fun e => crossesRay e.start e.end p ^^ crossesRay e.start e.end q) l := by
  induction l with
  | nil => rfl
  | cons e l ih =>
    simp only [rayParity, xorSum]
    rw [← ih]
    cases crossesRay e.start e.end p <;> cases crossesRay e.start e.end q <;> cases rayParity p l <;>
      cases rayParity q l <;> rfl

theorem eq_of_xor_false {x y : Bool} (h : (x ^^ y) = false) : x = y := by
  revert h; cases x <;> cases y <;> simp

theorem eq_of_xor_true {x y : Bool} (h : (x ^^ y) = true) : x = !y := by
  revert h; cases x <;> cases y <;> simp

theorem rayParity_const {vs : List Point} {p q : Point}
    (hd : Disjoint (segsPts (toContourSegments vs)) (seg p q)) :
    rayParity p (toContourSegments vs) = rayParity q (toContourSegments vs) := by
  wlog hpq : p.y ≤ q.y generalizing p q
  · exact (this (by rwa [seg_comm]) (le_of_not_ge hpq)).symm
  refine eq_of_xor_false ?_
  rw [rayParity_xor, ← contour_xor (inStrip p q) vs]
  refine xorSum_congr fun e he => jump hpq ?_
  rw [Set.disjoint_left]
  intro x hx hx'
  exact Set.disjoint_left.mp hd (show x ∈ segsPts _ from ⟨e, he, hx⟩) hx'

theorem crossing_flat {A B α β a b p q : ℚ} (hA : 0 < A) (hB : 0 < B) (hα : 0 < α) (hβ : 0 < β)
    (hs : A + B = α + β) (he : B * a + A * b = β * p + α * q) (hab : a ≤ b) (hpq : p ≤ q) (h : b ≤ p) :
    a = b ∧ p = q ∧ b = p := by
  have k1 : 0 ≤ B * (b - a) := mul_nonneg hB.le (by linarith)
  have k2 : 0 ≤ α * (q - p) := mul_nonneg hα.le (by linarith)
  have k3 : 0 ≤ (A + B) * (p - b) := mul_nonneg (by linarith) (by linarith)
  have sum : B * (b - a) + α * (q - p) + (A + B) * (p - b) = 0 := by
    have : (A + B) * p = (α + β) * p := by rw [hs]
    linarith
  have e1 : B * (b - a) = 0 := by linarith
  have e2 : α * (q - p) = 0 := by linarith
  have e3 : (A + B) * (p - b) = 0 := by linarith
  refine ⟨?_, ?_, ?_⟩
  · have := (mul_eq_zero.mp e1).resolve_left hB.ne'; linarith
  · have := (mul_eq_zero.mp e2).resolve_left hα.ne'; linarith
  · have := (mul_eq_zero.mp e3).resolve_left (by linarith); linarith

theorem crossing_below {A B α β a b p q : ℚ} (hA : 0 < A) (hB : 0 < B) (hα : 0 < α) (hβ : 0 < β)
    (hs : A + B = α + β) (he : B * a + A * b = β * p + α * q) (hab : a ≤ b) (hpq : p ≤ q) (h : q < a) :
    False := by
  have k1 : 0 ≤ A * (b - a) := mul_nonneg hA.le (by linarith)
  have k2 : 0 ≤ β * (q - p) := mul_nonneg hβ.le (by linarith)
  have k3 : 0 < (A + B) * (a - q) := mul_pos (by linarith) (by linarith)
  have : (A + B) * q = (α + β) * q := by rw [hs]
  linarith

/-- Crossing exactly one edge properly flips the parity. -/
theorem jump_cross_aux {a b p q : Point} (hpq : p.y ≤ q.y) (hab : a.y ≤ b.y)
    (h1 : cr a b p * cr a b q < 0) (h2 : cr p q a * cr p q b < 0) :
    (crossesRay a b p ^^ crossesRay a b q) = !(inStrip p q a ^^ inStrip p q b) := by
  have cp := crossesRay_of_le (p := p) hab
  have cq := crossesRay_of_le (p := q) hab
  have fa : inStrip p q a = true ↔ p.y < a.y ∧ a.y ≤ q.y ∧ cr p q a < 0 := by simp [inStrip]
  have fb : inStrip p q b = true ↔ p.y < b.y ∧ b.y ≤ q.y ∧ cr p q b < 0 := by simp [inStrip]
  have hD : cr a b q - cr a b p = -(cr p q b - cr p q a) := by unfold cr; ring
  -- heights of the crossing point
  have hX : (cr a b q - cr a b p) * a.y + cr p q a * (b.y - a.y) =
      (cr a b q - cr a b p) * p.y - cr a b p * (q.y - p.y) := by unfold cr; ring
  have hE : cr p q b * a.y - cr p q a * b.y = -cr a b q * p.y + cr a b p * q.y := by unfold cr; ring
  have np : ¬ b.y ≤ p.y := by
    intro h
    have flat : a.y = b.y ∧ p.y = q.y ∧ b.y = p.y := by
      rcases mul_neg_iff.mp h1 with ⟨s1, s2⟩ | ⟨s1, s2⟩ <;> rcases mul_neg_iff.mp h2 with ⟨t1, t2⟩ | ⟨t1, t2⟩
      · exfalso; linarith
      · exact crossing_flat (A := - cr p q a) (B := cr p q b) (α := cr a b p) (β := - cr a b q)
          (by linarith) t2 s1 (by linarith) (by linarith) (by linarith) hab hpq h
      · exact crossing_flat (A := cr p q a) (B := - cr p q b) (α := - cr a b p) (β := cr a b q)
          t1 (by linarith) (by linarith) s2 (by linarith) (by linarith) hab hpq h
      · exfalso; linarith
    obtain ⟨f1, f2, f3⟩ := flat
    have : cr a b p = 0 := by unfold cr; rw [f1, f3]; ring
    rw [this] at h1; linarith
  have nq : ¬ q.y < a.y := by
    intro h
    rcases mul_neg_iff.mp h1 with ⟨s1, s2⟩ | ⟨s1, s2⟩ <;> rcases mul_neg_iff.mp h2 with ⟨t1, t2⟩ | ⟨t1, t2⟩
    · linarith
    · exact crossing_below (A := - cr p q a) (B := cr p q b) (α := cr a b p) (β := - cr a b q)
          (by linarith) t2 s1 (by linarith) (by linarith) (by linarith) hab hpq h
    · exact crossing_below (A := cr p q a) (B := - cr p q b) (α := - cr a b p) (β := cr a b q)
          t1 (by linarith) (by linarith) s2 (by linarith) (by linarith) hab hpq h
    · linarith
  rcases mul_neg_iff.mp h1 with ⟨s1, s2⟩ | ⟨s1, s2⟩ <;> rcases mul_neg_iff.mp h2 with ⟨t1, t2⟩ | ⟨t1, t2⟩
  · exfalso; linarith
  · -- p left, q right; a right, b left
    by_cases a1 : a.y ≤ p.y <;> by_cases b2 : b.y ≤ q.y <;>
      (have A : inStrip p q a = decide (p.y < a.y) := by
        rw [Bool.eq_iff_iff, fa, decide_eq_true_eq]
        exact ⟨fun h => h.1, fun h => ⟨h, by linarith, t1⟩⟩) <;>
      (have B : inStrip p q b = false := by
        rw [Bool.eq_false_iff, ne_eq, fb]; intro h; linarith [h.2.2]) <;>
      (have P : crossesRay a b p = decide (a.y ≤ p.y) := by
        rw [Bool.eq_iff_iff, cp, decide_eq_true_eq]
        exact ⟨fun h => h.1, fun h => ⟨h, by linarith, s1⟩⟩) <;>
      (have Q : crossesRay a b q = false := by
        rw [Bool.eq_false_iff, ne_eq, cq]; intro h; linarith [h.2.2]) <;>
      rw [A, B, P, Q] <;> simp [a1, not_lt.mpr, not_le.mp] <;> linarith
  · have A : inStrip p q a = false := by
      rw [Bool.eq_false_iff, ne_eq, fa]; intro h; linarith [h.2.2]
    have B : inStrip p q b = decide (b.y ≤ q.y) := by
      rw [Bool.eq_iff_iff, fb, decide_eq_true_eq]
      exact ⟨fun h => h.2.1, fun h => ⟨by linarith, h, t2⟩⟩
    have P : crossesRay a b p = false := by
      rw [Bool.eq_false_iff, ne_eq, cp]; intro h; linarith [h.2.2]
    have Q : crossesRay a b q = decide (q.y < b.y) := by
      rw [Bool.eq_iff_iff, cq, decide_eq_true_eq]
      exact ⟨fun h => h.2.1, fun h => ⟨by linarith, h, s2⟩⟩
    rw [A, B, P, Q]
    by_cases b2 : b.y ≤ q.y
    · simp [b2, not_lt.mpr b2]
    · simp [b2, not_le.mp b2]
  · exfalso; linarith

theorem jump_cross {a b p q : Point} (hpq : p.y ≤ q.y)
    (h1 : cr a b p * cr a b q < 0) (h2 : cr p q a * cr p q b < 0) :
    (crossesRay a b p ^^ crossesRay a b q) = !(inStrip p q a ^^ inStrip p q b) := by
  rcases le_total a.y b.y with h | h
  · exact jump_cross_aux hpq h h1 h2
  · have nm : ∀ x, cr a b x ≠ 0 → x ∉ seg a b := fun x hx hm => hx (mem_seg_iff.mp hm).1
    have hp : p ∉ seg a b := nm p (left_ne_zero_of_mul h1.ne)
    have hq : q ∉ seg a b := nm q (right_ne_zero_of_mul h1.ne)
    rw [← crossesRay_swap hp, ← crossesRay_swap hq, jump_cross_aux hpq h ?_ ?_, Bool.xor_comm]
    · rw [cr_swap12 a b, cr_swap12 a b]; linarith
    · linarith

theorem rayParity_flip {vs : List Point} {p q : Point} {l1 l2 : List Segment} {e : Segment}
    (hl : toContourSegments vs = l1 ++ e :: l2) (hd : Disjoint (segsPts (l1 ++ l2)) (seg p q))
    (h1 : cr e.start e.end p * cr e.start e.end q < 0) (h2 : cr p q e.start * cr p q e.end < 0) :
    rayParity p (toContourSegments vs) = !rayParity q (toContourSegments vs) := by
  wlog hpq : p.y ≤ q.y generalizing p q
  · have := this (p := q) (q := p) (by rwa [seg_comm]) (by linarith)
      (by rw [cr_swap12 p q, cr_swap12 p q]; linarith) (le_of_not_ge hpq)
    rw [this, Bool.not_not]
  refine eq_of_xor_true ?_
  have hsum := contour_xor (inStrip p q) vs
  rw [rayParity_xor]
  rw [hl, xorSum_append] at hsum ⊢
  simp only [xorSum] at hsum ⊢
  have d : ∀ s ∈ l1 ++ l2, (crossesRay s.start s.end p ^^ crossesRay s.start s.end q) =
      (inStrip p q s.start ^^ inStrip p q s.end) := by
    intro s hs
    refine jump hpq ?_
    rw [Set.disjoint_left]
    intro x hx hx'
    exact Set.disjoint_left.mp hd (show x ∈ segsPts _ from ⟨s, hs, hx⟩) hx'
  rw [jump_cross hpq h1 h2, xorSum_congr (l := l1) (fun s hs => d s (List.mem_append_left _ hs)),
    xorSum_congr (l := l2) (fun s hs => d s (List.mem_append_right _ hs)), Bool.not_xor, Bool.xor_not, hsum]
  rfl

end Rene
