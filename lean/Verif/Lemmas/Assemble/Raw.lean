import Verif.Lemmas.Assemble.Even
import Verif.Lemmas.Assemble.Shrink

/-! The contours found by the assembly are simple, and consist of all the selected pieces. -/

namespace Rene.Sweep
open Rene Spec Face Assemble

/-- A directed piece. -/
def dartSeg (S : Shp) (e : ℕ) : Segment := ⟨S.lin.start e, S.lin.end e⟩

theorem raw_starts (S : Shp) : ∀ (x : ℕ) (l : List ℕ), (x :: l).IsChain (fun a b => S.lin.start b = S.lin.end a) →
    S.rawVertices (x :: l) = (x :: l).map S.lin.start := by
  intro x l h
  unfold Shp.rawVertices
  rw [List.headD_cons, List.map_cons]
  congr 1
  induction l generalizing x with
  | nil => rfl
  | cons y l ih =>
    rw [List.isChain_cons_cons] at h
    rw [List.dropLast_cons₂, List.map_cons, List.map_cons, ih y h.2, h.1]

theorem raw_consecutive (S : Shp) : ∀ (l : List ℕ) (x z : ℕ), (x :: l).IsChain (fun a b => S.lin.start b = S.lin.end a) →
    (x :: l).getLast? = some z →
    consecutive ((x :: l).map S.lin.start ++ [S.lin.end z]) = (x :: l).map (dartSeg S)
  | [], x, z, _, hz => by
    simp only [List.getLast?_singleton, Option.some.injEq] at hz
    subst hz
    rfl
  | y :: l, x, z, h, hz => by
    rw [List.isChain_cons_cons] at h
    have := raw_consecutive S l y z h.2 (by rw [List.getLast?_cons_cons] at hz; exact hz)
    simp only [List.map_cons, List.cons_append, consecutive] at this ⊢
    rw [this]
    unfold dartSeg
    rw [h.1]

theorem raw_segments (S : Shp) {l : List ℕ} {x z : ℕ} (h : l.IsChain (fun a b => S.lin.start b = S.lin.end a))
    (hx : l.head? = some x) (hz : l.getLast? = some z) (hc : S.lin.end z = S.lin.start x) :
    S.rawVertices l = l.map S.lin.start ∧ toContourSegments (S.rawVertices l) = l.map (dartSeg S) := by
  cases l with
  | nil => simp at hx
  | cons y l =>
    simp only [List.head?_cons, Option.some.injEq] at hx
    subst hx
    have e := raw_starts S y l h
    refine ⟨e, ?_⟩
    have := raw_consecutive S l y z h hz
    rw [hc] at this
    rw [e, List.map_cons, toContourSegments_eq]
    exact this

section
variable {ε : ℚ} {op : ShpOp} {first second full1 full2 : List Segment} {R1 R2 : Set Point} {stop : Point → Bool}
  {S : Shp} {M : Mix} {acc : List ℕ}

theorem mem_pieceOf {c : Ctx} {S : Shp} (w : Wf c S.lin) {x : ℕ} (hx : IsL S.lin x) (p : Point) :
    p ∈ segPts (segOf S x) ↔ c.On (S.lin.sid x) p ∧ lx c S.lin x ≤ c.X p ∧ c.X p ≤ rx c S.lin x :=
  mem_seg_on (w.onL x hx) (w.onR x hx) (w.lr x hx)

/-- Selected pieces meet only at their ends. -/
theorem Fin.noded (h : Fin ε op first second full1 full2 R1 R2 stop S M acc)
    (cl : Close ε op first second full1 full2 stop) {x y : ℕ} (hx : x ∈ chosen S acc) (hy : y ∈ chosen S acc)
    (hne : x ≠ y) : Noded (segOf S x) (segOf S y) := by
  set c := ctxOf first second ε with hc
  obtain ⟨x1, x2, x3⟩ := h.mem_chosen.mp hx
  obtain ⟨y1, y2, y3⟩ := h.mem_chosen.mp hy
  have w := h.wf
  have g := h.good
  have x4 := h.closed cl x1 x2 x3
  have y4 := h.closed cl y1 y2 y3
  have no := h.h1.noInt
  rw [← h.rel.lin] at no
  -- a common point is an end
  have key : ∀ {x y : ℕ}, IsL S.lin x → stop (S.lin.start x) = false → flag S.fromResult x = true →
      stop (S.lin.end x) = false → IsL S.lin y → stop (S.lin.start y) = false → flag S.fromResult y = true →
      stop (S.lin.end y) = false → x ≠ y →
      ∀ p, p ∈ segPts (segOf S x) → p ∈ segPts (segOf S y) → (p = S.lin.start x ∨ p = S.lin.end x) := by
    intro x y x1 x2 x3 x4 y1 y2 y3 y4 hne p hp hq
    obtain ⟨p1, p2, p3⟩ := (mem_pieceOf w x1 p).mp hp
    obtain ⟨q1, q2, q3⟩ := (mem_pieceOf w y1 p).mp hq
    have onE : ∀ {x : ℕ} {q : Point}, c.On (S.lin.sid x) p → c.On (S.lin.sid x) q → c.X p = c.X q → p = q := by
      intro x q a b e
      unfold Ctx.On at a b
      have hy : p.y = q.y := by rw [a, b, e]
      have hx : p.x = q.x := by
        have e' : p.x + c.ε * p.y = q.x + c.ε * q.y := e
        rw [hy] at e'
        linarith
      exact Point.ext' hx hy
    rcases eq_or_lt_of_le p2 with k | k
    · exact Or.inl (onE p1 (w.onL x x1) k.symm)
    · rcases eq_or_lt_of_le p3 with k' | k'
      · exact Or.inr (onE p1 (w.onR x x1) k')
      · exfalso
        rcases eq_or_lt_of_le q2 with m | m
        · have e : p = S.lin.start y := onE q1 (w.onL y y1) m.symm
          rw [e] at p1 k k'
          exact no _ (w.memP y y1.1) y2 x x1 p1 ⟨k, k'⟩
        · rcases eq_or_lt_of_le q3 with m' | m'
          · have e : p = S.lin.end y := onE q1 (w.onR y y1) m'
            rw [e] at p1 k k'
            exact no _ (end_mem w y1) y4 x x1 p1 ⟨k, k'⟩
          · refine h.no_cross cl x1 y1 hne x2 y2 x3 y3 k k' m m' ?_
            unfold Ctx.On at p1 q1
            rw [← p1, ← q1]
  have ends : ∀ p, p ∈ segPts (segOf S x) → p ∈ segPts (segOf S y) →
      (p = S.lin.start x ∨ p = S.lin.end x) ∧ (p = S.lin.start y ∨ p = S.lin.end y) := fun p hp hq =>
    ⟨key x1 x2 x3 x4 y1 y2 y3 y4 hne p hp hq, key y1 y2 y3 y4 x1 x2 x3 x4 hne.symm p hq hp⟩
  refine ⟨?_, ends⟩
  rintro p ⟨p1, p2⟩ q ⟨q1, q2⟩
  by_contra hpq
  obtain ⟨a1, a2⟩ := ends p p1 p2
  obtain ⟨b1, b2⟩ := ends q q1 q2
  have l1 := start_le_end g w x1
  have l2 := start_le_end g w y1
  -- the same ends
  have both : S.lin.start x = S.lin.start y ∧ S.lin.end x = S.lin.end y := by
    rcases a1 with a1 | a1 <;> rcases a2 with a2 | a2 <;> rcases b1 with b1 | b1 <;> rcases b2 with b2 | b2 <;>
      first
        | exact ⟨a1.symm.trans a2, b1.symm.trans b2⟩
        | exact ⟨b1.symm.trans b2, a1.symm.trans a2⟩
        | exact absurd (a1.trans b1.symm) hpq
        | exact absurd (a2.trans b2.symm) hpq
        | (exfalso; rw [← a1, ← b1] at l1; rw [← a2, ← b2] at l2; exact lt_asymm l1 l2)
  have lxy : lx c S.lin x = lx c S.lin y := congrArg c.X both.1
  have rxy : rx c S.lin x = rx c S.lin y := congrArg c.X both.2
  have coll : CollE c S.lin x y := by
    have o1 := w.onL x x1
    have o2 := w.onR x x1
    have o3 := w.onL y y1
    have o4 := w.onR y y1
    have r1 : c.X (S.lin.start x) = lx c S.lin x := rfl
    have r2 : c.X (S.lin.end x) = rx c S.lin x := rfl
    unfold Ctx.On Ctx.f at o1 o2 o3 o4
    rw [← both.1] at o3
    rw [← both.2] at o4
    rw [r1] at o1 o3
    rw [r2] at o2 o4
    have lr := w.lr x x1
    have hK : c.K (S.lin.sid x) = c.K (S.lin.sid y) := by
      have : (c.K (S.lin.sid x) - c.K (S.lin.sid y)) * (rx c S.lin x - lx c S.lin x) = 0 := by
        linear_combination o4 - o3 - o2 + o1
      rcases mul_eq_zero.mp this with k | k <;> linarith
    refine ⟨hK, ?_⟩
    rw [← hK] at o3
    linarith
  exact h.apart x1 y1 hne x2 y2 x3 y3 coll le_rfl (w.lr x x1) lxy.symm.le (by rw [lxy]; exact w.lr y y1)

theorem Fin.start_lt (h : Fin ε op first second full1 full2 R1 R2 stop S M acc) {x : ℕ} (hx : x ∈ chosen S acc) :
    S.lin.start x < S.lin.end x := start_le_end h.good h.wf (h.mem_chosen.mp hx).1

/-- The piece of an event. -/
theorem toLeft_chosen (h : Fin ε op first second full1 full2 R1 R2 stop S M acc)
    (cl : Close ε op first second full1 full2 stop) {e : ℕ} (he : e ∈ selEvents S acc) : S.lin.toLeft e ∈ chosen S acc := by
  obtain ⟨p1, p2, p3, _⟩ := h.piece cl he
  exact h.mem_chosen.mpr ⟨p1, p3, p2⟩

theorem dartSeg_eq {c : Ctx} (w : Wf c S.lin) {e : ℕ} (he : e < cnt S.lin) :
    dartSeg S e = segOf S (S.lin.toLeft e) ∨ dartSeg S e = (segOf S (S.lin.toLeft e)).reverse := by
  by_cases k : isLeft e = true
  · rw [toLeft_left k]; exact Or.inl rfl
  · rw [toLeft_right k]
    right
    unfold dartSeg segOf Segment.reverse
    simp only
    have e1 : S.lin.start e = S.lin.end (S.lin.opp e) := by
      show _ = S.lin.start (S.lin.opp (S.lin.opp e))
      rw [w.oppOpp e he]
    rw [← e1]
    rfl

theorem noded_dir {s t s' t' : Segment} (h : Noded s t) (hs : s' = s ∨ s' = s.reverse) (ht : t' = t ∨ t' = t.reverse) :
    Noded s' t' := by
  have key : ∀ {s t : Segment}, Noded s t → Noded s.reverse t := by
    intro s t h
    refine ⟨?_, fun p hp hp' => ?_⟩
    · unfold Apart at *; rw [segPts_reverse']; exact h.1
    · rw [segPts_reverse'] at hp
      obtain ⟨k1, k2⟩ := h.2 p hp hp'
      exact ⟨k1.symm, k2⟩
  rcases hs with rfl | rfl <;> rcases ht with rfl | rfl
  · exact h
  · exact noded_symm (key (noded_symm h))
  · exact key h
  · exact key (noded_symm (key (noded_symm h)))

theorem Peeled.contour {n : ℕ} {D : Darts (_root_.Fin n)} {side : (_root_.Fin n → Bool) → _root_.Fin n → Bool}
    (g : D.Good side) (hall : D.Ev fun _ => true) {Cs : List (List (_root_.Fin n))} (h : Peeled D side Cs) :
    ∀ C ∈ Cs, ∃ U e, D.Ev U ∧ D.lf e = true ∧ (∀ x, U x = true → D.rank e ≤ D.rank x) ∧ IsContour D side U e C := by
  induction h with
  | nil => simp
  | @snoc Cs e s hp hlf he hmin hs ih =>
    intro C hC
    rcases List.mem_append.mp hC with k | k
    · exact ih C k
    · rw [List.mem_singleton] at k
      subst k
      exact ⟨_, e, (hp.nest g hall).ev, hlf, hmin, hs⟩

variable {side : (_root_.Fin (selEvents S acc).length → Bool) → _root_.Fin (selEvents S acc).length → Bool}

/-- The vertices and the edges of a contour found by the assembly. -/
theorem contour_raw (h : Fin ε op first second full1 full2 R1 R2 stop S M acc)
    (cl : Close ε op first second full1 full2 stop) {U : _root_.Fin (selEvents S acc).length → Bool}
    {e : _root_.Fin (selEvents S acc).length} {s : List (_root_.Fin (selEvents S acc).length)}
    (hs : IsContour (darts (h.evs cl)) side U e s) :
    S.rawVertices (s.map (selEvents S acc).get) = (s.map (selEvents S acc).get).map S.lin.start ∧
    toContourSegments (S.rawVertices (s.map (selEvents S acc).get)) = (s.map (selEvents S acc).get).map (dartSeg S) := by
  have st : ∀ i j : _root_.Fin (selEvents S acc).length, (darts (h.evs cl)).v i = (darts (h.evs cl)).v ((darts (h.evs cl)).opp j) →
      S.lin.start ((selEvents S acc).get i) = S.lin.end ((selEvents S acc).get j) := by
    intro i j e
    rw [darts_v, darts_v, get_opp] at e
    exact ((h.evs cl).start _ (List.get_mem _ i) _ ((h.evs cl).opp _ (List.get_mem _ j))).mpr e
  have hne : s ≠ [] := by
    rintro rfl
    exact absurd hs.len (by simp)
  refine raw_segments S (x := (selEvents S acc).get e) (z := (selEvents S acc).get (s.getLast hne)) ?_ ?_ ?_ ?_
  · rw [List.isChain_map]
    exact hs.walk.imp fun a b hab => st b a hab
  · rw [List.head?_map, hs.head]; rfl
  · rw [List.getLast?_map, List.getLast?_eq_some_getLast hne]; rfl
  · exact (st e _ (hs.closed _ (List.getLast?_eq_some_getLast hne)).symm).symm

theorem contour_toLeft (h : Fin ε op first second full1 full2 R1 R2 stop S M acc)
    (cl : Close ε op first second full1 full2 stop) {i j : _root_.Fin (selEvents S acc).length}
    (e : S.lin.toLeft ((selEvents S acc).get i) = S.lin.toLeft ((selEvents S acc).get j)) :
    i = j ∨ i = (darts (h.evs cl)).opp j := by
  have w := h.wf
  have hi : (selEvents S acc).get i < cnt S.lin := ((mem_selEvents h).mp (List.get_mem _ i)).1
  have hj : (selEvents S acc).get j < cnt S.lin := ((mem_selEvents h).mp (List.get_mem _ j)).1
  by_cases a : isLeft ((selEvents S acc).get i) = true <;> by_cases b : isLeft ((selEvents S acc).get j) = true
  · rw [toLeft_left a, toLeft_left b] at e
    exact Or.inl (get_inj (h.evs cl) e)
  · rw [toLeft_left a, toLeft_right b] at e
    refine Or.inr (get_inj (h.evs cl) ?_)
    rw [get_opp]; exact e
  · rw [toLeft_right a, toLeft_left b] at e
    refine Or.inr (get_inj (h.evs cl) ?_)
    rw [get_opp, ← e, w.oppOpp _ hi]
  · rw [toLeft_right a, toLeft_right b] at e
    left
    apply get_inj (h.evs cl)
    rw [← w.oppOpp _ hi, e, w.oppOpp _ hj]

theorem contour_simple (h : Fin ε op first second full1 full2 R1 R2 stop S M acc)
    (cl : Close ε op first second full1 full2 stop) {U : _root_.Fin (selEvents S acc).length → Bool}
    {e : _root_.Fin (selEvents S acc).length} {s : List (_root_.Fin (selEvents S acc).length)}
    (hs : IsContour (darts (h.evs cl)) side U e s) :
    SimpleContour ⟨S.rawVertices (s.map (selEvents S acc).get)⟩ := by
  obtain ⟨r1, r2⟩ := contour_raw h cl hs
  have w := h.wf
  have hi : ∀ i : _root_.Fin (selEvents S acc).length, (selEvents S acc).get i < cnt S.lin := fun i => ((mem_selEvents h).mp (List.get_mem _ i)).1
  refine ⟨?_, ?_, ?_⟩
  · show 3 ≤ (S.rawVertices _).length
    rw [r1, List.length_map, List.length_map]; exact hs.len
  · show (S.rawVertices _).Nodup
    rw [r1]
    rw [List.map_map]
    have vnd := hs.vnd
    unfold List.Nodup at vnd ⊢
    rw [List.pairwise_map] at vnd ⊢
    refine vnd.imp fun {a b} hab k => hab ?_
    rw [darts_v, darts_v]
    exact ((h.evs cl).start _ (List.get_mem _ a) _ (List.get_mem _ b)).mp k
  · show FullyNoded (toContourSegments (S.rawVertices _))
    rw [r2]
    refine ⟨fun x hx => ?_, ?_⟩
    · rw [List.mem_map] at hx
      obtain ⟨y, hy, rfl⟩ := hx
      obtain ⟨i, _, rfl⟩ := List.mem_map.mp hy
      have lt := h.start_lt (toLeft_chosen h cl (List.get_mem (selEvents S acc) i))
      rcases dartSeg_eq w (hi i) with k | k <;> rw [k]
      · exact lt.ne
      · exact lt.ne'
    · rw [List.map_map, List.pairwise_map]
      have nd : s.Nodup := List.Nodup.of_map _ hs.vnd
      refine List.Pairwise.imp_of_mem ?_ nd
      intro a b ha hb hab
      refine noded_dir (h.noded cl (toLeft_chosen h cl (List.get_mem (selEvents S acc) a)) (toLeft_chosen h cl (List.get_mem (selEvents S acc) b)) ?_)
        (dartSeg_eq w (hi a)) (dartSeg_eq w (hi b))
      intro q
      rcases contour_toLeft h cl q with z | z
      · exact hab z
      · exact hs.no b hb (by rw [← z]; exact ha)

/-- All the selected pieces are in the contours. -/
theorem contours_perm (h : Fin ε op first second full1 full2 R1 R2 stop S M acc)
    (cl : Close ε op first second full1 full2 stop) (g : (darts (h.evs cl)).Good side)
    (hall : (darts (h.evs cl)).Ev fun _ => true) {Cs : List (List (_root_.Fin (selEvents S acc).length))}
    (hp : Peeled (darts (h.evs cl)) side Cs) (done : ∀ i, (darts (h.evs cl)).rem Cs i = false) :
    ((Cs.flatten.map (selEvents S acc).get).map S.lin.toLeft).Perm (chosen S acc) := by
  have w := h.wf
  rw [List.map_map]
  refine (List.perm_ext_iff_of_nodup ?_ (h.h1.nd.filter _)).mpr fun x => ?_
  · unfold List.Nodup
    rw [List.pairwise_map, List.pairwise_flatten]
    refine ⟨fun C hC => ?_, ?_⟩
    · obtain ⟨U, e, _, _, _, hs⟩ := Peeled.contour g hall hp C hC
      have nd : C.Nodup := List.Nodup.of_map _ hs.vnd
      refine List.Pairwise.imp_of_mem ?_ nd
      intro a b ha hb hab q
      rcases contour_toLeft h cl q with z | z
      · exact hab z
      · exact hs.no b hb (by rw [← z]; exact ha)
    · refine (hp.nest g hall).const.imp fun {C C'} hCC a ha b hb q => ?_
      have k := hCC.2.2 a ((darts (h.evs cl)).span_iff.mpr (Or.inl ha))
      have k' := (darts (h.evs cl)).span_false.mp k
      rcases contour_toLeft h cl q with z | z
      · exact k'.1 (by rw [z]; exact hb)
      · refine k'.2 ?_
        rw [z, g.opp_opp]; exact hb
  · constructor
    · intro hx
      obtain ⟨i, _, rfl⟩ := List.mem_map.mp hx
      exact toLeft_chosen h cl (List.get_mem (selEvents S acc) i)
    · intro hx
      obtain ⟨x1, x2, x3⟩ := h.mem_chosen.mp hx
      have hl : isLeft x = true := isLeft_iff.mpr x1.2
      have hm : x ∈ (selEvents S acc) := (mem_selEvents h).mpr ⟨x1.1, x2, by rw [fromResult_left' x1.2]; exact x3⟩
      obtain ⟨i, hi⟩ := List.mem_iff_get.mp hm
      have := done i
      unfold Darts.rem at this
      rw [List.all_eq_false] at this
      obtain ⟨C, hC, k⟩ := this
      have k' : (darts (h.evs cl)).span C i = true := by simpa using k
      rw [List.mem_map]
      rcases (darts (h.evs cl)).span_iff.mp k' with q | q
      · exact ⟨i, List.mem_flatten.mpr ⟨C, hC, q⟩, by simp only [Function.comp]; rw [hi, toLeft_left hl]⟩
      · refine ⟨_, List.mem_flatten.mpr ⟨C, hC, q⟩, ?_⟩
        simp only [Function.comp]
        rw [get_opp, hi, toLeft_opp w x1.1, toLeft_left hl]

end

end Rene.Sweep
