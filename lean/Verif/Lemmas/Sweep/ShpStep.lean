import Verif.Lemmas.Sweep.ShpSim

/-! What the elementary steps of the shaped engine do to the fields of the events. -/

namespace Rene.Sweep
open Rene Spec

variable {c : Ctx}

/-- The recorded event below. -/
def bel (S : Shp) (x : ℕ) : Option ℕ := S.belowFromResult.getD (x / 2) none

/-- Selection as a function of the other fields. -/
def sdet (op : ShpOp) (first oth : Bool) (k : OverlapKind) : Bool :=
  match op with
  | .difference => if first then !oth && decide (k = .none)
    else (oth && decide (k = .none)) || decide (k = .differentOrientation)
  | .intersection => (oth && decide (k = .none)) || (!first && decide (k = .sameOrientation))
  | .union => (!oth && decide (k = .none)) || (!first && decide (k = .sameOrientation))
  | .symmetricDifference => decide (k = .none)

theorem sdetects_eq (op : ShpOp) (S : Shp) (x : ℕ) :
    op.detects S x = sdet op (S.lin.leftFirst x) (flag S.other x) (S.kind x) := by
  cases op <;> rfl

/-- The event below from the result as seen from an event right above the given one. -/
def BR (op : ShpOp) (S : Shp) : Option ℕ → Option ℕ
  | none => none
  | some b => if !op.detects S b || S.isVertical b then bel S b else some b

/-- The fields are as many as the left events. -/
structure SLen (S : Shp) : Prop where
  kinds : S.kinds.length * 2 = cnt S.lin
  fromResult : S.fromResult.length * 2 = cnt S.lin
  below : S.belowFromResult.length * 2 = cnt S.lin
  other : S.other.length * 2 = cnt S.lin
  starts : S.startsIds.length = cnt S.lin

theorem getD_append_replicate {α : Type} (l : List α) (n i : ℕ) (d : α) :
    (l ++ List.replicate n d).getD i d = l.getD i d := by
  rw [List.getD_eq_getElem?_getD, List.getD_eq_getElem?_getD, List.getElem?_append]
  split
  · rfl
  · rename_i h
    rw [List.getElem?_eq_none (not_lt.mp h), List.getElem?_replicate]
    split <;> rfl

theorem getD_set {α : Type} {l : List α} {i : ℕ} {v d : α} (hi : i < l.length) (j : ℕ) :
    (l.set i v).getD j d = if j = i then v else l.getD j d := by
  rw [List.getD_eq_getElem?_getD, List.getD_eq_getElem?_getD, List.getElem?_set]
  by_cases h : j = i
  · rw [if_pos h.symm, if_pos hi, if_pos h]; rfl
  · rw [if_neg (fun z => h z.symm), if_neg h]

/-- Two overlapping segments: whether the interiors are on the same side. -/
def kindOf (inte : ℕ → Bool) (i j : ℕ) : OverlapKind :=
  if inte i = inte j then .sameOrientation else .differentOrientation

theorem kindOf_comm (inte : ℕ → Bool) (i j : ℕ) : kindOf inte i j = kindOf inte j i := by
  unfold kindOf
  by_cases h : inte i = inte j
  · rw [if_pos h, if_pos h.symm]
  · rw [if_neg h, if_neg (fun z => h z.symm)]

theorem kindOf_ne (inte : ℕ → Bool) (i j : ℕ) : kindOf inte i j ≠ .none := by
  unfold kindOf; split <;> simp

/-- What the intersection test does. -/
structure SSim (S S' : Shp) (b e : ℕ) (r : Bool) (n : ℕ) : Prop where
  interior : S'.interior = S.interior
  cnt : Sweep.cnt S'.lin = Sweep.cnt S.lin + 2 * n
  other : S'.other = S.other ++ List.replicate n false
  fromResult : S'.fromResult = S.fromResult ++ List.replicate n false
  below : S'.belowFromResult = S.belowFromResult ++ List.replicate n none
  starts : S'.startsIds = S.startsIds ++ List.replicate (2 * n) none
  first : S'.currentFirst = S.currentFirst
  id : S'.currentId = S.currentId
  kinds : S'.kinds = if r then
    ((S.kinds ++ List.replicate n OverlapKind.none).set (b / 2)
        (kindOf (fun i => S.interior.getD i false) (S'.lin.sid e) (S'.lin.sid b))).set (e / 2)
        (kindOf (fun i => S.interior.getD i false) (S'.lin.sid e) (S'.lin.sid b))
    else S.kinds ++ List.replicate n OverlapKind.none

theorem ssim_refl (S : Shp) (b e : ℕ) : SSim S S b e false 0 := by
  constructor <;> simp

theorem ssim_one (S : Shp) (b e x : ℕ) (m : Point) : SSim S (S.divideByMidpoint x m) b e false 1 := by
  constructor <;> simp [Shp.divideByMidpoint, cnt_divide, List.replicate_succ]

theorem ssim_two (S : Shp) (b e x y : ℕ) (m m' : Point) :
    SSim S ((S.divideByMidpoint x m).divideByMidpoint y m') b e false 2 := by
  constructor <;> simp [Shp.divideByMidpoint, cnt_divide, List.replicate_succ]

theorem SSim.mark {S S' : Shp} {b e n : ℕ} (h : SSim S S' b e false n) :
    SSim S (S'.markOverlap b e) b e true n := by
  have := h.kinds
  simp only [Bool.false_eq_true, if_false] at this
  refine ⟨h.interior, h.cnt, h.other, h.fromResult, h.below, h.starts, h.first, h.id, ?_⟩
  unfold Shp.markOverlap kindOf
  simp only [this, h.interior, if_true]

theorem ssim_ite {S : Shp} {b e : ℕ} {c : Prop} [Decidable c] {r r' : Shp × Bool}
    (h : ∃ n, SSim S r.1 b e r.2 n) (h' : ∃ n, SSim S r'.1 b e r'.2 n) :
    ∃ n, SSim S (if c then r else r').1 b e (if c then r else r').2 n := by
  by_cases hc : c
  · rw [if_pos hc]; exact h
  · rw [if_neg hc]; exact h'

theorem detect_ssim (S : Shp) (b e : ℕ) : ∃ n, SSim S (S.detect b e).1 b e (S.detect b e).2 n := by
  unfold Shp.detect
  have z0 : ∃ n, SSim S (S, false).1 b e (S, false).2 n := ⟨0, ssim_refl S b e⟩
  have z1 : ∀ x m, ∃ n, SSim S (S.divideByMidpoint x m, false).1 b e (S.divideByMidpoint x m, false).2 n :=
    fun x m => ⟨1, ssim_one S b e x m⟩
  have z2 : ∀ x m x' m', ∃ n, SSim S ((S.divideByMidpoint x m).divideByMidpoint x' m', false).1 b e
      ((S.divideByMidpoint x m).divideByMidpoint x' m', false).2 n :=
    fun x m x' m' => ⟨2, ssim_two S b e x x' m m'⟩
  refine ssim_ite (ssim_ite (ssim_ite ?_ (ssim_ite (ssim_ite (z1 _ _) (z1 _ _)) (ssim_ite (ssim_ite (z2 _ _ _ _) (z2 _ _ _ _))
    (ssim_ite (ssim_ite (z2 _ _ _ _) (z2 _ _ _ _)) z0)))) z0) ?_
  · simp only
    by_cases h4 : S.lin.end e ≠ S.lin.end b
    · rw [if_pos h4]
      by_cases h5 : (S.lin.end e).ltB (S.lin.end b) = true
      · rw [if_pos h5]; exact ⟨1, (ssim_one S b e _ _).mark⟩
      · rw [if_neg h5]; exact ⟨1, (ssim_one S b e _ _).mark⟩
    · rw [if_neg h4]; exact ⟨0, (ssim_refl S b e).mark⟩
  · refine ssim_ite (ssim_ite (z1 _ _) z0) (ssim_ite (ssim_ite (z1 _ _) z0) (ssim_ite (ssim_ite (z1 _ _) z0)
      (ssim_ite (ssim_ite (z1 _ _) z0) (ssim_ite (z2 _ _ _ _) z0))))

/-- The intersection test on the fields. -/
structure SDet (S S' : Shp) (b e : ℕ) (r : Bool) : Prop where
  lin : S'.lin = S.lin.detectIntersection b e
  interior : S'.interior = S.interior
  len : SLen S'
  other : ∀ x, flag S'.other x = flag S.other x
  fromResult : ∀ x, flag S'.fromResult x = flag S.fromResult x
  below : ∀ x, bel S' x = bel S x
  starts : ∀ x, S'.startsIds.getD x none = S.startsIds.getD x none
  first : S'.currentFirst = S.currentFirst
  id : S'.currentId = S.currentId
  kinds : ∀ x, S'.kind x = if r = true ∧ (x / 2 = b / 2 ∨ x / 2 = e / 2) then
    kindOf (fun i => S.interior.getD i false) (S'.lin.sid e) (S'.lin.sid b) else S.kind x

theorem Rel.exists (S : Shp) : ∃ M, Rel S M :=
  ⟨⟨S.lin, S.interior, S.other, [], S.kinds.map fun k => decide (k ≠ OverlapKind.none)⟩, rfl, rfl, rfl, rfl⟩

theorem detectIntersection_sdet (S : Shp) (hl : SLen S) {b e : ℕ} (hb : b < cnt S.lin) (he : e < cnt S.lin) :
    SDet S (S.detectIntersection b e).1 b e (S.detectIntersection b e).2 := by
  obtain ⟨n, h⟩ := detect_ssim S b e
  obtain ⟨M, hM⟩ := Rel.exists S
  have hlin : (S.detect b e).1.lin = S.lin.detect b e := by
    rw [(hM.detect b e).1.lin, (detect_sim M b e).1, hM.lin]
  have l1 := hl.kinds
  have l2 := hl.fromResult
  have l3 := hl.below
  have l4 := hl.other
  have l5 := hl.starts
  have hc := h.cnt
  refine ⟨?_, h.interior, ⟨?_, ?_, ?_, ?_, ?_⟩, fun x => ?_, fun x => ?_, fun x => ?_, fun x => ?_, h.first, h.id,
    fun x => ?_⟩
  · unfold Shp.detectIntersection Lin.detectIntersection
    simp only
    rw [hlin]
  · show (S.detect b e).1.kinds.length * 2 = cnt (S.detect b e).1.lin
    rw [h.kinds, hc]
    split
    · rw [List.length_set, List.length_set, List.length_append, List.length_replicate]; omega
    · rw [List.length_append, List.length_replicate]; omega
  · show (S.detect b e).1.fromResult.length * 2 = cnt (S.detect b e).1.lin
    rw [h.fromResult, List.length_append, List.length_replicate, hc]; omega
  · show (S.detect b e).1.belowFromResult.length * 2 = cnt (S.detect b e).1.lin
    rw [h.below, List.length_append, List.length_replicate, hc]; omega
  · show (S.detect b e).1.other.length * 2 = cnt (S.detect b e).1.lin
    rw [h.other, List.length_append, List.length_replicate, hc]; omega
  · show (S.detect b e).1.startsIds.length = cnt (S.detect b e).1.lin
    rw [h.starts, List.length_append, List.length_replicate, hc]; omega
  · show flag (S.detect b e).1.other x = _
    rw [h.other, flag_append]
  · show flag (S.detect b e).1.fromResult x = _
    rw [h.fromResult, flag_append]
  · show (S.detect b e).1.belowFromResult.getD _ _ = _
    rw [h.below, getD_append_replicate]; rfl
  · show (S.detect b e).1.startsIds.getD _ _ = _
    rw [h.starts, getD_append_replicate]
  · change (S.detect b e).1.kinds.getD (x / 2) .none = if (S.detect b e).2 = true ∧ (x / 2 = b / 2 ∨ x / 2 = e / 2)
      then kindOf (fun i => S.interior.getD i false) ((S.detect b e).1.lin.sid e) ((S.detect b e).1.lin.sid b)
      else S.kinds.getD (x / 2) .none
    rw [h.kinds]
    have lb : b / 2 < (S.kinds ++ List.replicate n OverlapKind.none).length := by
      rw [List.length_append]; omega
    by_cases hr : (S.detect b e).2 = true
    · rw [if_pos hr]
      rw [getD_set (by rw [List.length_set, List.length_append]; omega), getD_set lb, getD_append_replicate]
      by_cases k1 : x / 2 = e / 2
      · rw [if_pos k1, if_pos ⟨hr, Or.inr k1⟩]
      · rw [if_neg k1]
        by_cases k2 : x / 2 = b / 2
        · rw [if_pos k2, if_pos ⟨hr, Or.inl k2⟩]
        · rw [if_neg k2, if_neg (by tauto)]
    · rw [if_neg hr, if_neg (fun z => hr z.1)]
      exact getD_append_replicate _ _ _ _

/-- `computeFields` on the fields. -/
structure SComp (op : ShpOp) (S S' : Shp) (e : ℕ) (b? : Option ℕ) : Prop where
  lin : S'.lin = S.lin
  interior : S'.interior = S.interior
  len : SLen S'
  kinds : S'.kinds = S.kinds
  starts : S'.startsIds = S.startsIds
  first : S'.currentFirst = S.currentFirst
  id : S'.currentId = S.currentId
  other : ∀ x, x % 2 = 0 → x ≠ e → flag S'.other x = flag S.other x
  otherN : b? = none → flag S'.other e = flag S.other e
  below : ∀ x, x % 2 = 0 → x ≠ e → bel S' x = bel S x
  belowE : ∀ b, b? = some b → bel S' e = BR op S' (some b)
  belowN : b? = none → bel S' e = bel S e
  fromResult : ∀ x, x % 2 = 0 → x ≠ e → flag S'.fromResult x = flag S.fromResult x
  fromResultE : flag S'.fromResult e = op.detects S' e

theorem computeFields_scomp (op : ShpOp) (S : Shp) (hl : SLen S) {e : ℕ} (he : e < cnt S.lin) (h2 : e % 2 = 0)
    (b? : Option ℕ) (hb : ∀ b, b? = some b → b % 2 = 0 ∧ b ≠ e) :
    SComp op S (S.computeFields op e b?) e b? := by
  have l1 := hl.kinds
  have l2 := hl.fromResult
  have l3 := hl.below
  have l4 := hl.other
  cases b? with
  | none =>
    refine ⟨rfl, rfl, ⟨l1, ?_, l3, l4, hl.starts⟩, rfl, rfl, rfl, rfl, fun _ _ _ => rfl, fun _ => rfl,
      fun _ _ _ => rfl, by simp, fun _ => rfl, fun x hx hxe => ?_, ?_⟩
    · show (S.fromResult.set _ _).length * 2 = _
      rw [List.length_set]; exact l2
    · show flag (S.fromResult.set (e / 2) (op.detects S e)) x = _
      rw [flag_set (by omega), if_neg (half_ne hx h2 hxe)]
    · show flag (S.fromResult.set (e / 2) (op.detects S e)) e = _
      rw [flag_set (by omega), if_pos rfl, sdetects_eq, sdetects_eq]; rfl
  | some b =>
    obtain ⟨hb2, hbe⟩ := hb b rfl
    refine ⟨rfl, rfl, ⟨l1, ?_, ?_, ?_, hl.starts⟩, rfl, rfl, rfl, rfl, fun x hx hxe => ?_, by simp,
      fun x hx hxe => ?_, fun b' hb' => ?_, by simp, fun x hx hxe => ?_, ?_⟩
    · show (S.fromResult.set _ _).length * 2 = _
      rw [List.length_set]; exact l2
    · show (S.belowFromResult.set _ _).length * 2 = _
      rw [List.length_set]; exact l3
    · show (S.other.set _ _).length * 2 = _
      rw [List.length_set]; exact l4
    · show flag (S.other.set (e / 2) _) x = _
      rw [flag_set (by omega), if_neg (half_ne hx h2 hxe)]
    · show (S.belowFromResult.set (e / 2) _).getD (x / 2) none = _
      rw [getD_set (by omega), if_neg (half_ne hx h2 hxe)]; rfl
    · cases hb'
      have e1 : bel (S.computeFields op e (some b)) b = bel S b := by
        show (S.belowFromResult.set (e / 2) _).getD (b / 2) none = _
        rw [getD_set (by omega), if_neg (half_ne hb2 h2 hbe)]; rfl
      show bel (S.computeFields op e (some b)) e = if (!op.detects (S.computeFields op e (some b)) b ||
        (S.computeFields op e (some b)).isVertical b) = true then bel (S.computeFields op e (some b)) b else some b
      rw [e1]
      show (S.belowFromResult.set (e / 2) _).getD (e / 2) none = _
      rw [getD_set (by omega), if_pos rfl, sdetects_eq, sdetects_eq]
      rfl
    · unfold Shp.computeFields
      simp only
      rw [flag_set (by omega), if_neg (half_ne hx h2 hxe)]
    · unfold Shp.computeFields
      simp only
      rw [flag_set (by omega), if_pos rfl, sdetects_eq, sdetects_eq]; rfl

end Rene.Sweep
