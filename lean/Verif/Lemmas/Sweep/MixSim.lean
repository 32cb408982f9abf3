import Verif.Lemmas.Sweep.Ann
import Verif.Model.Mixed

/-! The mixed engine runs the linear one, and what it does to the flags. -/

namespace Rene.Sweep
open Rene Spec

/-- Flag of an event. -/
def flag (l : List Bool) (x : ℕ) : Bool := l.getD (x / 2) false

theorem flag_append (l : List Bool) (n x : ℕ) : flag (l ++ List.replicate n false) x = flag l x := by
  unfold flag
  rw [List.getD_eq_getElem?_getD, List.getD_eq_getElem?_getD, List.getElem?_append]
  split
  · rfl
  · rename_i h
    rw [List.getElem?_eq_none (not_lt.mp h), List.getElem?_replicate]
    split <;> rfl

theorem flag_set {l : List Bool} {e : ℕ} {v : Bool} (he : e / 2 < l.length) (x : ℕ) :
    flag (l.set (e / 2) v) x = if x / 2 = e / 2 then v else flag l x := by
  unfold flag
  rw [List.getD_eq_getElem?_getD, List.getD_eq_getElem?_getD, List.getElem?_set]
  by_cases h : x / 2 = e / 2
  · rw [if_pos h.symm, if_pos he, if_pos h]; rfl
  · rw [if_neg (fun z => h z.symm), if_neg h]

/-- The flags are as many as the left events. -/
structure Len (M : Mix) : Prop where
  other : M.other.length * 2 = cnt M.lin
  fromResult : M.fromResult.length * 2 = cnt M.lin
  overlap : M.overlap.length * 2 = cnt M.lin

theorem cnt_divide (S : Lin) (e : ℕ) (m : Point) : cnt (S.divideByMidpoint e m) = cnt S + 2 := by
  simp [cnt, Lin.divideByMidpoint, Lin.divide, Lin.push]

/-- What the intersection test does. -/
structure Sim (M M' : Mix) (b e : ℕ) (r : Bool) (n : ℕ) : Prop where
  interior : M'.interior = M.interior
  cnt : Sweep.cnt M'.lin = Sweep.cnt M.lin + 2 * n
  other : M'.other = M.other ++ List.replicate n false
  fromResult : M'.fromResult = M.fromResult ++ List.replicate n false
  overlap : M'.overlap = if r then
    ((M.overlap ++ List.replicate n false).set (b / 2) true).set (e / 2) true
    else M.overlap ++ List.replicate n false

theorem sim_refl (M : Mix) (b e : ℕ) : Sim M M b e false 0 := by
  constructor <;> simp

theorem sim_one (M : Mix) (b e x : ℕ) (m : Point) : Sim M (M.divideByMidpoint x m) b e false 1 := by
  constructor <;> simp [Mix.divideByMidpoint, cnt_divide]

theorem sim_two (M : Mix) (b e x y : ℕ) (m m' : Point) :
    Sim M ((M.divideByMidpoint x m).divideByMidpoint y m') b e false 2 := by
  constructor <;> simp [Mix.divideByMidpoint, cnt_divide, List.replicate_succ]

theorem Sim.mark {M M' : Mix} {b e n : ℕ} (h : Sim M M' b e false n) : Sim M (M'.markOverlap b e) b e true n := by
  have := h.overlap
  simp only [Bool.false_eq_true, if_false] at this
  refine ⟨h.interior, h.cnt, h.other, h.fromResult, ?_⟩
  simp [Mix.markOverlap, this]

/-- What is proved of the intersection test: the state, the returned value and the flags. -/
structure DS (M : Mix) (b e : ℕ) (P : Prop) (r : Mix × Bool) (L : Lin) : Prop where
  lin : r.1.lin = L
  ret : r.2 = true ↔ P
  sim : ∃ n, Sim M r.1 b e r.2 n

theorem ds_ite {M : Mix} {b e : ℕ} {P : Prop} {c : Prop} [Decidable c] {r r' : Mix × Bool} {L L' : Lin}
    (h : c → DS M b e P r L) (h' : ¬ c → DS M b e P r' L') :
    DS M b e P (if c then r else r') (if c then L else L') := by
  by_cases hc : c
  · rw [if_pos hc, if_pos hc]; exact h hc
  · rw [if_neg hc, if_neg hc]; exact h' hc

theorem ds_zero {M : Mix} {b e : ℕ} {P : Prop} (h : ¬ P) : DS M b e P (M, false) M.lin :=
  ⟨rfl, ⟨fun z => absurd z (by simp), fun z => absurd z h⟩, 0, sim_refl M b e⟩

theorem ds_one {M : Mix} {b e x : ℕ} {m : Point} {P : Prop} (h : ¬ P) :
    DS M b e P (M.divideByMidpoint x m, false) (M.lin.divideByMidpoint x m) :=
  ⟨rfl, ⟨fun z => absurd z (by simp), fun z => absurd z h⟩, 1, sim_one M b e _ _⟩

theorem ds_two {M : Mix} {b e x y : ℕ} {m m' : Point} {P : Prop} (h : ¬ P) :
    DS M b e P ((M.divideByMidpoint x m).divideByMidpoint y m', false)
      ((M.lin.divideByMidpoint x m).divideByMidpoint y m') :=
  ⟨rfl, ⟨fun z => absurd z (by simp), fun z => absurd z h⟩, 2, sim_two M b e _ _ _ _⟩

theorem detect_ds (M : Mix) (b e : ℕ) :
    DS M b e (orient (M.lin.end b) (M.lin.start b) (M.lin.start e) = .collinear ∧
      orient (M.lin.end b) (M.lin.start b) (M.lin.end e) = .collinear ∧ M.lin.start e = M.lin.start b)
      (M.detect b e) (M.lin.detect b e) := by
  unfold Mix.detect Lin.detect
  refine ds_ite (fun h1 => ds_ite (fun h2 => ?_) (fun h2 => ds_zero fun z => h2 z.1)) (fun h1 => ?_)
  · by_cases h3 : M.lin.start e = M.lin.start b
    · rw [if_pos h3, if_pos h3]
      refine ⟨?_, ⟨fun _ => ⟨h2, h1.symm.trans h2, h3⟩, fun _ => rfl⟩, ?_⟩
      · by_cases h4 : M.lin.end e ≠ M.lin.end b
        · rw [if_pos h4, if_pos h4]
          by_cases h5 : (M.lin.end e).ltB (M.lin.end b) = true
          · rw [if_pos h5, if_pos h5]; rfl
          · rw [if_neg h5, if_neg h5]; rfl
        · rw [if_neg h4, if_neg h4]; rfl
      · by_cases h4 : M.lin.end e ≠ M.lin.end b
        · rw [if_pos h4]
          by_cases h5 : (M.lin.end e).ltB (M.lin.end b) = true
          · rw [if_pos h5]; exact ⟨1, (sim_one M b e _ _).mark⟩
          · rw [if_neg h5]; exact ⟨1, (sim_one M b e _ _).mark⟩
        · rw [if_neg h4]; exact ⟨0, (sim_refl M b e).mark⟩
    · rw [if_neg h3, if_neg h3]
      have no : ¬ (orient (M.lin.end b) (M.lin.start b) (M.lin.start e) = .collinear ∧
        orient (M.lin.end b) (M.lin.start b) (M.lin.end e) = .collinear ∧ M.lin.start e = M.lin.start b) :=
        fun z => h3 z.2.2
      refine ds_ite (fun _ => ds_ite (fun _ => ds_one no) (fun _ => ds_one no)) (fun _ => ?_)
      refine ds_ite (fun _ => ds_ite (fun _ => ds_two no) (fun _ => ds_two no)) (fun _ => ?_)
      exact ds_ite (fun _ => ds_ite (fun _ => ds_two no) (fun _ => ds_two no)) (fun _ => ds_zero no)
  · have no : ¬ (orient (M.lin.end b) (M.lin.start b) (M.lin.start e) = .collinear ∧
        orient (M.lin.end b) (M.lin.start b) (M.lin.end e) = .collinear ∧ M.lin.start e = M.lin.start b) :=
      fun z => h1 (z.1.trans z.2.1.symm)
    refine ds_ite (fun _ => ds_ite (fun _ => ds_one no) (fun _ => ds_zero no)) (fun _ => ?_)
    refine ds_ite (fun _ => ds_ite (fun _ => ds_one no) (fun _ => ds_zero no)) (fun _ => ?_)
    refine ds_ite (fun _ => ds_ite (fun _ => ds_one no) (fun _ => ds_zero no)) (fun _ => ?_)
    refine ds_ite (fun _ => ds_ite (fun _ => ds_one no) (fun _ => ds_zero no)) (fun _ => ?_)
    exact ds_ite (fun _ => ds_two no) (fun _ => ds_zero no)

theorem detect_sim (M : Mix) (b e : ℕ) :
    (M.detect b e).1.lin = M.lin.detect b e ∧
    ((M.detect b e).2 = true ↔ orient (M.lin.end b) (M.lin.start b) (M.lin.start e) = .collinear ∧
      orient (M.lin.end b) (M.lin.start b) (M.lin.end e) = .collinear ∧ M.lin.start e = M.lin.start b) ∧
    ∃ n, Sim M (M.detect b e).1 b e (M.detect b e).2 n :=
  ⟨(detect_ds M b e).lin, (detect_ds M b e).ret, (detect_ds M b e).sim⟩

/-- `detectIntersection` on the state of the linear engine and on the flags. -/
theorem detectIntersection_sim (M : Mix) (hl : Len M) {b e : ℕ} (hb : b < cnt M.lin) (he : e < cnt M.lin) :
    (M.detectIntersection b e).1.lin = M.lin.detectIntersection b e ∧
    (M.detectIntersection b e).1.interior = M.interior ∧
    Len (M.detectIntersection b e).1 ∧
    (∀ x, flag (M.detectIntersection b e).1.other x = flag M.other x) ∧
    (∀ x, flag (M.detectIntersection b e).1.fromResult x = flag M.fromResult x) ∧
    (∀ x, flag (M.detectIntersection b e).1.overlap x = true ↔ flag M.overlap x = true ∨
      ((M.detectIntersection b e).2 = true ∧ (x / 2 = b / 2 ∨ x / 2 = e / 2))) := by
  obtain ⟨h1, h2, n, h3⟩ := detect_sim M b e
  have l1 := hl.other
  have l2 := hl.fromResult
  have l3 := hl.overlap
  have lb : b / 2 < (M.overlap ++ List.replicate n false).length := by
    rw [List.length_append]; omega
  have le : e / 2 < ((M.overlap ++ List.replicate n false).set (b / 2) true).length := by
    rw [List.length_set, List.length_append]; omega
  have hc := h3.cnt
  refine ⟨?_, h3.interior, ⟨?_, ?_, ?_⟩, fun x => ?_, fun x => ?_, fun x => ?_⟩
  · unfold Mix.detectIntersection Lin.detectIntersection
    simp only
    rw [h1]
  · show (M.detect b e).1.other.length * 2 = cnt (M.detect b e).1.lin
    rw [h3.other, List.length_append, List.length_replicate, hc]; omega
  · show (M.detect b e).1.fromResult.length * 2 = cnt (M.detect b e).1.lin
    rw [h3.fromResult, List.length_append, List.length_replicate, hc]; omega
  · show (M.detect b e).1.overlap.length * 2 = cnt (M.detect b e).1.lin
    rw [h3.overlap, hc]
    split
    · rw [List.length_set, List.length_set, List.length_append, List.length_replicate]; omega
    · rw [List.length_append, List.length_replicate]; omega
  · show flag (M.detect b e).1.other x = _
    rw [h3.other, flag_append]
  · show flag (M.detect b e).1.fromResult x = _
    rw [h3.fromResult, flag_append]
  · show flag (M.detect b e).1.overlap x = true ↔ _ ∨ ((M.detect b e).2 = true ∧ _)
    rw [h3.overlap]
    cases (M.detect b e).2
    · simp [flag_append]
    · simp only [if_true]
      rw [flag_set le, flag_set lb, flag_append]
      by_cases k1 : x / 2 = e / 2
      · simp [k1]
      · by_cases k2 : x / 2 = b / 2
        · simp [k2]
        · simp [k1, k2]

theorem detectIntersection_ret (M : Mix) (b e : ℕ) : (M.detectIntersection b e).2 = true ↔
    orient (M.lin.end b) (M.lin.start b) (M.lin.start e) = .collinear ∧
      orient (M.lin.end b) (M.lin.start b) (M.lin.end e) = .collinear ∧ M.lin.start e = M.lin.start b :=
  (detect_sim M b e).2.1

/-- The returned value tells whether the events overlap from their start. -/
theorem ret_iff {c : Ctx} (g : c.Good) {M : Mix} {b e : ℕ} (w : Wf c M.lin) (hb : IsL M.lin b) (he : IsL M.lin e) :
    (M.detectIntersection b e).2 = true ↔ Ret c M.lin b e := by
  rw [detectIntersection_ret]
  have o := fun q => (Ctx.orient_on_rev (q := q) (w.onL b hb) (w.onR b hb) (w.lr b hb)).2.2
  rw [o, o]
  have ol := w.onL e he
  have or := w.onR e he
  unfold Ctx.On at ol or
  rw [ol, or]
  constructor
  · rintro ⟨h1, h2, h3⟩
    exact ⟨Ctx.coll_of_two (w.lr e he).ne h1.symm h2.symm, by unfold lx; rw [h3]⟩
  · rintro ⟨h1, h2⟩
    exact ⟨(h1.f_eq _).symm, (h1.f_eq _).symm, (g.eq_iff (w.memP e he.1) (w.memP b hb.1)).mpr h2.symm⟩

/-- `computeFields` on the flags. -/
theorem computeFields_sim (op : MixOp) (M : Mix) (hl : Len M) {e : ℕ} (he : e < cnt M.lin) (b? : Option ℕ) :
    (M.computeFields op e b?).lin = M.lin ∧ (M.computeFields op e b?).interior = M.interior ∧
    (M.computeFields op e b?).overlap = M.overlap ∧ Len (M.computeFields op e b?) ∧
    (∀ x, flag (M.computeFields op e b?).other x = if x / 2 = e / 2 then
      (match b? with
      | some b => if M.lin.leftFirst e = M.lin.leftFirst b then flag M.other b
        else M.interior.getD (M.lin.sid b) false
      | none => flag M.other e) else flag M.other x) ∧
    (∀ x, flag (M.computeFields op e b?).fromResult x = if x / 2 = e / 2 then
      op.detects (M.computeFields op e b?) e else flag M.fromResult x) := by
  have l1 := hl.other
  have l2 := hl.fromResult
  have l3 := hl.overlap
  cases b? with
  | none =>
    refine ⟨rfl, rfl, rfl, ⟨l1, ?_, l3⟩, fun x => ?_, fun x => ?_⟩
    · show (M.fromResult.set _ _).length * 2 = _
      rw [List.length_set]; exact l2
    · show flag M.other x = _
      simp only
      split
      · rename_i h; unfold flag; rw [h]
      · rfl
    · show flag (M.fromResult.set (e / 2) (op.detects M e)) x = _
      rw [flag_set (by omega)]
      rfl
  | some b =>
    refine ⟨rfl, rfl, rfl, ⟨?_, ?_, l3⟩, fun x => ?_, fun x => ?_⟩
    · show (M.other.set _ _).length * 2 = _
      rw [List.length_set]; exact l1
    · show (M.fromResult.set _ _).length * 2 = _
      rw [List.length_set]; exact l2
    · show flag (M.other.set (e / 2) _) x = _
      rw [flag_set (by omega)]
      rfl
    · unfold Mix.computeFields
      simp only
      rw [flag_set (by omega)]
      rfl

end Rene.Sweep
