import Verif.Lemmas.BO.NodedLoop
import Verif.Lemmas.ContourSegments

/-! The validity sweep of noded segments from the start, and the edges of a contour. -/

namespace Rene.BO
open Rene Spec Sweep

variable {L : List Segment}

/-- An end of the segment. -/
def IsEnd (s : Segment) (q : Point) : Prop := q = s.start ∨ q = s.end

theorem exists_far {c : Ctx} (nb : ∀ i j t, ¬ Bad c i j t) : ∃ β, Far c β := by
  by_cases h : c.P.Nonempty
  · obtain ⟨m, _, hm⟩ := Finset.exists_max_image c.P c.X h
    exact ⟨c.X m + 1, nb, fun q hq => by have := hm q hq; linarith⟩
  · exact ⟨0, nb, fun q hq => absurd ⟨q, hq⟩ h⟩

theorem sweepWith_far {pick : Reg → ℕ} (hpick : GoodPick pick) (test : Intersection → Bool) (hL : FullyNoded L)
    (hne : L ≠ []) (fuel : ℕ) :
    (2 * L.length ≤ fuel → sweepWith pick test fuel L ≠ none) ∧
    (∀ n, sweepWith pick test fuel L = some (some n) → ∀ i < L.length, ∀ j < L.length, i ≠ j → ∀ q,
      IsEnd (segAt L i) q → IsEnd (segAt L j) q →
      test ⟨i, j, .touch, q, q⟩ = true ∨ test ⟨j, i, .touch, q, q⟩ = true) ∧
    (2 * L.length ≤ fuel → (∀ i < L.length, ∀ j < L.length, i ≠ j → ∀ q, IsEnd (segAt L i) q → IsEnd (segAt L j) q →
      test ⟨i, j, .touch, q, q⟩ = true) → ∃ m, sweepWith pick test fuel L = some (some m) ∧
      ((∀ q ids, ids ≠ [] → ids.Nodup → (∀ z, z ∈ ids ↔ z < L.length ∧ IsEnd (segAt L z) q) →
        2 * (pairsOf ids).length = ids.length) → m = L.length)) := by
  obtain ⟨ε, g⟩ := exists_good0 hL.1
  have nb := (fullyNoded_iff g hL.1).mp hL
  obtain ⟨β, fr⟩ := exists_far nb
  have ie : ∀ i q, ((ctxOf [] L ε).A i = q ∨ (ctxOf [] L ε).B i = q) ↔ IsEnd (segAt L i) q := by
    intro i q
    have eA : (ctxOf [] L ε).A i = lo (segAt L i) := rfl
    have eB : (ctxOf [] L ε).B i = hi (segAt L i) := rfl
    rw [eA, eB]
    unfold IsEnd
    rw [lo_or]
    constructor <;> rintro (k | k) <;> simp [k]
  have w := init_wfb g
  have hN : (ctxOf [] L ε).N = L.length := rfl
  have hl : 0 < L.length := List.length_pos_of_ne_nil hne
  have qne : (Reg.init L).lin.queue ≠ [] := fun k => by
    have := (init_q L 0).mpr (by omega)
    rw [k] at this; exact absurd this List.not_mem_nil
  have low := low_of_pick hpick g w (fun e he => by rw [init_cnt']; exact (init_q L e).mp he) qne
  unfold sweepWith
  simp only
  rw [if_neg qne]
  generalize pick (Reg.init L) = e at *
  have he : e < cnt (Reg.init L).lin := by rw [init_cnt']; exact (init_q L e).mp low.mem
  have hle : lx (ctxOf [] L ε) (Reg.init L).lin e ≤ β := (fr.far _ (w.memP e he)).le
  have st := st_process (by omega) (init_wk L) e
  have hs : ((Reg.init L).process e).start e = (Reg.init L).lin.start e := by
    obtain ⟨t, ht⟩ := st.pre
    show ((Reg.init L).process e).lin.start e = _
    unfold Lin.start
    rw [ht, List.getD_eq_getElem?_getD, List.getElem?_append_left he, List.getD_eq_getElem?_getD]
  have b0 := init_base g low hle
  have c0 := init_clean (β := β) g low
  obtain ⟨k1, k2, k3, k4, k5, k6⟩ := far_step g fr b0 c0 low rfl rfl
  rw [if_neg (by rw [k1]; simp), hs, k4]
  have es := far_sid fr b0 c0 he
  have g0 : Grp (ctxOf [] L ε) (Reg.init L) ((Reg.init L).lin.start e) [] := by
    refine ⟨List.nodup_nil, fun z => ⟨fun k => absurd k List.not_mem_nil, ?_⟩⟩
    rintro ⟨hz, ⟨_, k⟩ | ⟨_, k⟩⟩
    · exact absurd ((init_q L _).mpr (by omega)) k
    · exact absurd ((init_q L _).mpr (by omega)) k
  have g1 := g0.step g fr b0 c0 low.mem rfl k5
  rw [← es] at g1
  have ql : ((Reg.init L).process e).lin.queue.length + 1 = 2 * L.length := by
    rw [k6]; exact List.length_range
  obtain ⟨f1, f2, f3⟩ := sweep_far hpick test g fr fuel _ _ _ 0 k2 k3 k1 (by simp) g1
  rw [List.nil_append] at f1 f2 f3
  refine ⟨fun k => f1 (by omega), fun n k i hi' j hj hij q qi qj => ?_, fun k y => ?_⟩
  · refine f2 n k q ?_ i hi' j hj hij ((ie _ _).mpr qi) ((ie _ _).mpr qj)
    rcases (ie _ _).mpr qi with z | z
    · have := low.min (2 * i) ((init_q L _).mpr (by omega))
      refine this.trans_eq ?_
      unfold lx; rw [w.initA i hi', z]
    · have := low.min (2 * i + 1) ((init_q L _).mpr (by omega))
      refine this.trans_eq ?_
      unfold lx; rw [w.initB i hi', z]
  · obtain ⟨m, m1, m2⟩ := f3 (by omega) fun q i hi' j hj hij qi qj => y i hi' j hj hij q ((ie _ _).mp qi) ((ie _ _).mp qj)
    rw [Nat.zero_add] at m1
    refine ⟨m, m1, fun z => ?_⟩
    have := m2 fun q ids ne sr => z q ids ne sr.nd fun x => by rw [sr.mem, ie, hN]
    rw [List.length_singleton] at this
    omega

/-! ### The edges of a contour -/

/-- The vertex with the cyclic index. -/
def vtx (vs : List Point) (i : ℕ) : Point := vs.getD (i % vs.length) ⟨0, 0⟩

theorem consecutive_length : ∀ l : List Point, (consecutive l).length = l.length - 1
  | [] => rfl
  | [_] => rfl
  | a :: b :: l => by rw [consecutive, List.length_cons, consecutive_length (b :: l)]; rfl

theorem consecutive_get (l : List Point) : ∀ i (h : i + 1 < l.length),
    (consecutive l)[i]? = some ⟨l[i], l[i + 1]⟩ := by
  induction l with
  | nil => intro i h; simp at h
  | cons a l ih =>
    intro i h
    cases l with
    | nil => simp at h
    | cons b l =>
      rw [consecutive]
      cases i with
      | zero => rfl
      | succ i =>
        rw [List.getElem?_cons_succ, ih i (by simp at h ⊢; omega)]; rfl

theorem contour_length {vs : List Point} : (toContourSegments vs).length = vs.length := by
  cases vs with
  | nil => rfl
  | cons v vs =>
    rw [toContourSegments_eq, consecutive_length]; simp

theorem contour_get {vs : List Point} {i : ℕ} (hi' : i < vs.length) :
    segAt (toContourSegments vs) i = ⟨vtx vs i, vtx vs (i + 1)⟩ := by
  cases vs with
  | nil => simp at hi'
  | cons v vs =>
    rw [toContourSegments_eq]
    unfold segAt vtx
    have hl : (v :: vs ++ [v]).length = (v :: vs).length + 1 := by simp
    rw [List.getD_eq_getElem?_getD, consecutive_get _ i (by omega)]
    rw [Nat.mod_eq_of_lt hi']
    show (⟨_, _⟩ : Segment) = _
    congr 1
    · rw [List.getD_eq_getElem?_getD, List.getElem?_eq_getElem hi', List.getElem_append_left hi']; rfl
    · by_cases k : i + 1 < (v :: vs).length
      · rw [Nat.mod_eq_of_lt k, List.getD_eq_getElem?_getD, List.getElem?_eq_getElem k, List.getElem_append_left k]; rfl
      · have e : i + 1 = (v :: vs).length := by omega
        have z : (i + 1) % (v :: vs).length = 0 := by rw [e, Nat.mod_self]
        rw [z, List.getElem_append_right (by omega)]
        simp

theorem orient_cyc {a b c : Point} : orient a b c = .collinear ↔ orient b c a = .collinear := by
  rw [orient_collinear, orient_collinear]; unfold cr; constructor <;> intro h <;> linarith

theorem noCollinearTriples_iff : ∀ l : List Point, noCollinearTriples l = true ↔
    ∀ i (h : i + 2 < l.length), orient l[i] l[i + 1] l[i + 2] ≠ .collinear := by
  intro l
  induction l with
  | nil => simp [noCollinearTriples]
  | cons a l ih =>
    rcases l with _ | ⟨b, _ | ⟨c, l⟩⟩
    · simp [noCollinearTriples]
    · simp [noCollinearTriples]
    · rw [noCollinearTriples, Bool.and_eq_true, decide_eq_true_iff, ih]
      constructor
      · rintro ⟨h1, h2⟩ i hi'
        cases i with
        | zero => exact h1
        | succ i => exact h2 i (by simp at hi' ⊢; omega)
      · intro h
        exact ⟨h 0 (by simp), fun i hi' => h (i + 1) (by simp at hi' ⊢; omega)⟩

/-- No vertex is collinear with its neighbours. -/
def NoStraight (vs : List Point) : Prop :=
  ∀ i < vs.length, orient (vtx vs i) (vtx vs (i + 1)) (vtx vs (i + 2)) ≠ .collinear

theorem nonDegenerate_iff {vs : List Point} (h3 : 3 ≤ vs.length) :
    areContourVerticesNonDegenerate vs = true ↔ NoStraight vs := by
  have vt : ∀ i (h : i < vs.length), vtx vs i = vs[i] := by
    intro i h
    unfold vtx
    rw [Nat.mod_eq_of_lt h, List.getD_eq_getElem?_getD, List.getElem?_eq_getElem h]; rfl
  have vg : ∀ i (h : i < vs.length), vs.getD i ⟨0, 0⟩ = vtx vs i := by
    intro i h
    unfold vtx
    rw [Nat.mod_eq_of_lt h]
  have v0 : ∀ k, vtx vs (vs.length + k) = vtx vs k := by
    intro k; unfold vtx; rw [Nat.add_mod_left]
  have e1 : vs.length - 2 + 1 = vs.length - 1 := by omega
  have e2 : vs.length - 2 + 2 = vs.length + 0 := by omega
  have e3 : vs.length - 1 + 1 = vs.length + 0 := by omega
  have e4 : vs.length - 1 + 2 = vs.length + 1 := by omega
  unfold areContourVerticesNonDegenerate
  simp only
  rw [Bool.and_eq_true, noCollinearTriples_iff, Bool.or_eq_true, Bool.and_eq_true, decide_eq_true_iff, decide_eq_true_iff,
    decide_eq_true_iff, vg _ (by omega), vg _ (by omega), vg _ (by omega), vg _ (by omega)]
  unfold NoStraight
  constructor
  · rintro ⟨h1, h2⟩ i hi'
    by_cases k : i + 2 < vs.length
    · rw [vt i hi', vt _ (by omega), vt _ k]; exact h1 i k
    by_cases k3 : vs.length ≤ 3
    · have l3 : vs.length = 3 := by omega
      have z := h1 0 (by omega)
      rw [← vt 0 (by omega), ← vt (0 + 1) (by omega), ← vt (0 + 2) (by omega)] at z
      have z3 : vtx vs 3 = vtx vs 0 := by have := v0 0; rwa [l3] at this
      have z4 : vtx vs 4 = vtx vs 1 := by have := v0 1; rwa [l3] at this
      have : i = 1 ∨ i = 2 := by omega
      rcases this with rfl | rfl
      · show orient (vtx vs 1) (vtx vs 2) (vtx vs 3) ≠ _
        rw [z3, Ne, ← orient_cyc]; exact z
      · show orient (vtx vs 2) (vtx vs 3) (vtx vs 4) ≠ _
        rw [z3, z4, Ne, orient_cyc]; exact z
    · rcases h2 with h2 | h2
      · exact absurd h2 k3
      · have : i = vs.length - 2 ∨ i = vs.length - 1 := by omega
        rcases this with rfl | rfl
        · rw [e1, e2, v0]; exact h2.1
        · rw [e3, e4, v0, v0]; exact h2.2
  · intro h
    refine ⟨fun i hi' => ?_, Or.inr ⟨?_, ?_⟩⟩
    · rw [← vt i (by omega), ← vt (i + 1) (by omega), ← vt (i + 2) hi']; exact h i (by omega)
    · have := h (vs.length - 2) (by omega)
      rwa [e1, e2, v0] at this
    · have := h (vs.length - 1) (by omega)
      rwa [e3, e4, v0, v0] at this

/-- The cyclic neighbours. -/
def Nbr (n i j : ℕ) : Prop := (i + 1) % n = j ∨ (j + 1) % n = i

theorem nbr_iff {n i j : ℕ} (h3 : 3 ≤ n) (hi' : i < n) (hj : j < n) :
    ((i = j + 1 ∨ j = i + 1) ∨ (i = n - 1 ∧ j = 0)) ∨ (j = n - 1 ∧ i = 0) ↔ Nbr n i j := by
  unfold Nbr
  have m : ∀ k < n, (k + 1) % n = if k + 1 = n then 0 else k + 1 := by
    intro k hk
    split
    · next h => rw [h, Nat.mod_self]
    · exact Nat.mod_eq_of_lt (by omega)
  rw [m i hi', m j hj]
  split <;> split <;> omega

theorem test_iff {vs : List Point} (h3 : 3 ≤ vs.length) {i j : ℕ} (hi' : i < vs.length) (hj : j < vs.length) {q : Point}
    (qi : IsEnd (segAt (toContourSegments vs) i) q) (qj : IsEnd (segAt (toContourSegments vs) j) q) :
    neighbourSegmentsVerticesTouch (toContourSegments vs) ⟨i, j, .touch, q, q⟩ = true ↔ Nbr vs.length i j := by
  rw [← nbr_iff h3 hi' hj]
  unfold IsEnd segAt at qi qj
  unfold neighbourSegmentsVerticesTouch
  simp only [contour_length, decide_true, Bool.true_and, Bool.and_eq_true, Bool.or_eq_true, decide_eq_true_iff, qi, qj]
  simp

theorem touch_of_test {l : List Segment} {x : Intersection} (h : neighbourSegmentsVerticesTouch l x = true) :
    x.relation = .touch := by
  unfold neighbourSegmentsVerticesTouch at h
  simp only [Bool.and_eq_true, decide_eq_true_iff] at h
  exact h.1.1.1

theorem pickFull_good : GoodPick pickFull := by
  intro R hne
  unfold pickFull
  cases hq : R.lin.queue with
  | nil => exact absurd hq hne
  | cons x rest =>
    simp only
    have key := leastFrom_spec (α := ℚ ×ₗ ℚ ×ₗ Bool ×ₗ ℚ ×ₗ ℚ)
      (fun e => toLex ((R.start e).x, toLex ((R.start e).y, toLex (isLeft e, toLex ((R.end e).x, (R.end e).y))))) R.fullLt rest x
      (by
        intro a _ b _ _
        simp only [Prod.Lex.toLex_lt_toLex]
        unfold Reg.fullLt
        rw [Bool.lt_iff]
        have pl : (R.end a).ltB (R.end b) = true ↔ (R.end a).x < (R.end b).x ∨
            (R.end a).x = (R.end b).x ∧ (R.end a).y < (R.end b).y := by
          unfold Point.ltB
          grind
        generalize isLeft a = u at *
        generalize isLeft b = v at *
        split_ifs with h1 h2 h3
        · rw [decide_eq_true_iff]; grind
        · rw [decide_eq_true_iff]; grind
        · grind
        · rw [pl]; grind)
    refine ⟨key.1, fun y hy => ?_⟩
    have k := key.2 y hy
    generalize Lin.leastFrom R.fullLt x rest = b at *
    simp only [Prod.Lex.toLex_le_toLex, Bool.lt_iff] at k
    unfold Reg.queueLt
    generalize isLeft y = u at *
    generalize isLeft b = v at *
    split_ifs with h1 h2 h3
    · rw [decide_eq_false_iff_not]; grind
    · rw [decide_eq_false_iff_not]; grind
    · cases u <;> cases v <;> grind
    · rfl

end Rene.BO
