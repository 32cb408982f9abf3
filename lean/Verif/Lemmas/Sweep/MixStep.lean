import Verif.Lemmas.Sweep.MixSim

/-! One iteration of the mixed engine: the state of the linear engine and the flags. -/

namespace Rene.Sweep
open Rene Spec

variable {c : Ctx}

/-- The result flag as a function of the other ones. -/
def det (op : MixOp) (first oth ov : Bool) : Bool :=
  match op with
  | .linearShapedDifference => first && (!oth && !ov)
  | .linearShapedIntersection => first && !(!oth && !ov)
  | .shapedLinearIntersection => !first && !(!oth && !ov)

theorem detects_eq (op : MixOp) (M : Mix) (x : ℕ) :
    op.detects M x = det op (M.lin.leftFirst x) (flag M.other x) (flag M.overlap x) := by
  cases op <;> rfl

/-- The result flags are up to date. -/
def FrOn (op : MixOp) (M : Mix) (D : ℕ → Prop) : Prop :=
  ∀ x, x % 2 = 0 → D x → flag M.fromResult x = det op (M.lin.leftFirst x) (flag M.other x) (flag M.overlap x)

theorem half_iff {x e : ℕ} (hx : x % 2 = 0) (he : e % 2 = 0) : x / 2 = e / 2 ↔ x = e := by omega

theorem half_ne {x e : ℕ} (hx : x % 2 = 0) (he : e % 2 = 0) (h : x ≠ e) : ¬ x / 2 = e / 2 := by omega

theorem FrOn.compute {op : MixOp} {M : Mix} {D : ℕ → Prop} {e : ℕ} (h : FrOn op M D) (hl : Len M)
    (he : e < cnt M.lin) (h2 : e % 2 = 0) (b? : Option ℕ) :
    FrOn op (M.computeFields op e b?) (fun x => D x ∨ x = e) := by
  obtain ⟨k1, k2, k3, k4, k5, k6⟩ := computeFields_sim op M hl he b?
  intro x hx hD
  rw [k6]
  by_cases hxe : x = e
  · rw [if_pos (by rw [hxe]), detects_eq, hxe]
  · rw [if_neg (half_ne hx h2 hxe), h x hx (hD.resolve_right hxe), k1, k3, k5, if_neg (half_ne hx h2 hxe)]

/-- A state on which the intersection test has been run, with the recomputation of the flags. -/
structure Tested (c : Ctx) (op : MixOp) (M M' : Mix) (a b : ℕ) : Prop where
  lin : M'.lin = M.lin.detectIntersection a b
  interior : M'.interior = M.interior
  len : Len M'
  fr : ∀ D : ℕ → Prop, (∀ x, D x → x < cnt M.lin) → FrOn op M D → FrOn op M' D
  ov : ∀ x, x % 2 = 0 → (flag M'.overlap x = true ↔
    flag M.overlap x = true ∨ (Ret c M.lin a b ∧ (x = a ∨ x = b)))
  oth : ∀ x, x % 2 = 0 → (¬ Ret c M.lin a b ∨ (x ≠ a ∧ x ≠ b)) → flag M'.other x = flag M.other x

/-- The test without recomputation. -/
theorem tested_no (g : c.Good) {op : MixOp} {M : Mix} {p : Point} (h : Inv0 c M.lin p) (hl : Len M) {a b : ℕ}
    (ha : a ∈ M.lin.sweepLine) (hb : b ∈ M.lin.sweepLine) (hab : a ≠ b)
    (hr : ¬ (M.detectIntersection a b).2 = true) : Tested c op M (M.detectIntersection a b).1 a b := by
  have la := h.isL ha
  have lb := h.isL hb
  obtain ⟨k1, k2, k3, k4, k5, k6⟩ := detectIntersection_sim M hl la.1 lb.1
  obtain ⟨_, x, _⟩ := detectIntersection_spec g h ha hb hab
  have hr' : ¬ Ret c M.lin a b := fun z => hr ((ret_iff g h.wf la lb).mpr z)
  refine ⟨k1, k2, k3, fun D hD f y hy hDy => ?_, fun y hy => ?_, fun y _ _ => k4 y⟩
  · have o : flag (M.detectIntersection a b).1.overlap y = flag M.overlap y := by
      rw [Bool.eq_iff_iff, k6]
      constructor
      · rintro (z | z)
        · exact z
        · exact absurd z.1 hr
      · exact Or.inl
    rw [k5, k4, o, f y hy hDy, k1]
    congr 1
    unfold Lin.leftFirst
    rw [x.sid y (hD y hDy)]
    have := (detectIntersection_spec g h ha hb hab).1.wf.fc
    rw [this, h.wf.fc]
  · rw [k6]
    constructor
    · rintro (z | z)
      · exact Or.inl z
      · exact absurd z.1 hr
    · rintro (z | z)
      · exact Or.inl z
      · exact absurd z.1 hr'

/-- The test with recomputation. -/
theorem tested_yes (g : c.Good) {op : MixOp} {M : Mix} {p : Point} (h : Inv0 c M.lin p) (hl : Len M) {a b : ℕ}
    (ha : a ∈ M.lin.sweepLine) (hb : b ∈ M.lin.sweepLine) (hab : a ≠ b)
    (hr : (M.detectIntersection a b).2 = true) (u? : Option ℕ) :
    Tested c op M (((M.detectIntersection a b).1.computeFields op a u?).computeFields op b (some a)) a b := by
  have la := h.isL ha
  have lb := h.isL hb
  obtain ⟨k1, k2, k3, k4, k5, k6⟩ := detectIntersection_sim M hl la.1 lb.1
  obtain ⟨i, x, _⟩ := detectIntersection_spec g h ha hb hab
  have hr' : Ret c M.lin a b := (ret_iff g h.wf la lb).mp hr
  generalize hN : (M.detectIntersection a b).1 = N at *
  have la' : a < cnt N.lin := by rw [k1]; exact (x.isL la).1
  have lb' : b < cnt N.lin := by rw [k1]; exact (x.isL lb).1
  obtain ⟨m1, m2, m3, m4, m5, m6⟩ := computeFields_sim op N k3 la' u?
  have lb'' : b < cnt (N.computeFields op a u?).lin := by rw [m1]; exact lb'
  obtain ⟨n1, n2, n3, n4, n5, n6⟩ := computeFields_sim op (N.computeFields op a u?) m4 lb'' (some a)
  refine ⟨by rw [n1, m1, k1], by rw [n2, m2, k2], n4, fun D hD f => ?_, fun y hy => ?_, fun y hy hny => ?_⟩
  · have f1 : FrOn op N (fun y => D y ∧ y ≠ a ∧ y ≠ b) := by
      intro y hy hDy
      have o : flag N.overlap y = flag M.overlap y := by
        rw [Bool.eq_iff_iff, k6]
        constructor
        · rintro (z | ⟨_, z⟩)
          · exact z
          · rw [half_iff hy la.2, half_iff hy lb.2] at z
            exact absurd z (by tauto)
        · exact Or.inl
      rw [k5, k4, o, f y hy hDy.1, k1]
      congr 1
      unfold Lin.leftFirst
      rw [x.sid y (hD y hDy.1), i.wf.fc, h.wf.fc]
    have f2 := (f1.compute k3 la' la.2 u?).compute m4 lb'' lb.2 (some a)
    intro y hy hDy
    refine f2 y hy ?_
    by_cases e1 : y = a
    · exact Or.inl (Or.inr e1)
    · by_cases e2 : y = b
      · exact Or.inr e2
      · exact Or.inl (Or.inl ⟨hDy, e1, e2⟩)
  · rw [n3, m3, k6, half_iff hy la.2, half_iff hy lb.2]
    exact ⟨fun z => z.imp_right fun w => ⟨hr', w.2⟩, fun z => z.imp_right fun w => ⟨hr, w.2⟩⟩
  · rcases hny with z | ⟨z1, z2⟩
    · exact absurd hr' z
    · rw [n5, if_neg (half_ne hy lb.2 z2), m5, if_neg (half_ne hy la.2 z1), k4]

theorem checkAbove_tested (g : c.Good) {op : MixOp} {M : Mix} {p : Point} (h : Inv0 c M.lin p) (hl : Len M)
    {e a : ℕ} (he : e ∈ M.lin.sweepLine) (ha : a ∈ M.lin.sweepLine) (hea : e ≠ a) (u? : Option ℕ) :
    Tested c op M (M.checkAbove op e (some a) u?) e a := by
  unfold Mix.checkAbove
  simp only
  by_cases hr : (M.detectIntersection e a).2 = true
  · rw [if_pos hr]; exact tested_yes g h hl he ha hea hr u?
  · rw [if_neg hr]; exact tested_no g h hl he ha hea hr

theorem checkBelow_tested (g : c.Good) {op : MixOp} {M : Mix} {p : Point} (h : Inv0 c M.lin p) (hl : Len M)
    {e b : ℕ} (he : e ∈ M.lin.sweepLine) (hb : b ∈ M.lin.sweepLine) (hbe : b ≠ e) :
    Tested c op M (M.checkBelow op e (some b)) b e := by
  unfold Mix.checkBelow
  simp only
  by_cases hr : (M.detectIntersection b e).2 = true
  · rw [if_pos hr]; exact tested_yes g h hl hb he hbe hr _
  · rw [if_neg hr]; exact tested_no g h hl hb he hbe hr

/-- Value computed for an event from the event below it. -/
theorem compute_value {op : MixOp} {M : Mix} (w : M.lin.firstCount = c.F) (hl : Len M) {e : ℕ} (he : e < cnt M.lin)
    (b? : Option ℕ) (hf : b? = none → flag M.other e = false) :
    flag (M.computeFields op e b?).other e =
      fromBelow c M.lin (fun i => M.interior.getD i false) (flag M.other) e b? := by
  obtain ⟨_, _, _, _, k5, _⟩ := computeFields_sim op M hl he b?
  rw [k5, if_pos rfl]
  cases b? with
  | none => exact hf rfl
  | some b =>
    unfold fromBelow opB Lin.leftFirst
    rw [w]

/-- The recomputed values when the events above overlap. -/
theorem checkAbove_value (g : c.Good) {op : MixOp} {M : Mix} {p : Point} (h : Inv0 c M.lin p) (hl : Len M)
    {e a : ℕ} (he : e ∈ M.lin.sweepLine) (ha : a ∈ M.lin.sweepLine) (hea : e ≠ a) (u? : Option ℕ)
    (hu : ∀ u, u? = some u → u < cnt M.lin ∧ u % 2 = 0 ∧ u ≠ e) (hf : u? = none → flag M.other e = false)
    (hr : Ret c M.lin e a) (hop : opB c (M.lin.sid a) ≠ opB c (M.lin.sid e)) :
    flag (M.checkAbove op e (some a) u?).other e =
      fromBelow c M.lin (fun i => M.interior.getD i false) (flag M.other) e u? ∧
    flag (M.checkAbove op e (some a) u?).other a =
      fromBelow c M.lin (fun i => M.interior.getD i false) (flag M.other) a (some e) := by
  have le := h.isL he
  have la := h.isL ha
  obtain ⟨k1, k2, k3, k4, k5, k6⟩ := detectIntersection_sim M hl le.1 la.1
  obtain ⟨i, x, _⟩ := detectIntersection_spec g h he ha hea
  have hr' := (ret_iff g h.wf le la).mpr hr
  unfold Mix.checkAbove
  simp only
  rw [if_pos hr']
  generalize hN : (M.detectIntersection e a).1 = N at *
  have le' : e < cnt N.lin := by rw [k1]; exact (x.isL le).1
  have la' : a < cnt N.lin := by rw [k1]; exact (x.isL la).1
  obtain ⟨m1, m2, m3, m4, m5, m6⟩ := computeFields_sim op N k3 le' u?
  have la'' : a < cnt (N.computeFields op e u?).lin := by rw [m1]; exact la'
  obtain ⟨n1, n2, n3, n4, n5, n6⟩ := computeFields_sim op (N.computeFields op e u?) m4 la'' (some e)
  have sidE : ∀ y, y < cnt M.lin → N.lin.sid y = M.lin.sid y := fun y hy => by rw [k1]; exact x.sid y hy
  have fc : N.lin.firstCount = c.F := by rw [k1]; exact i.wf.fc
  constructor
  · rw [n5, if_neg (half_ne le.2 la.2 hea), compute_value (c := c) fc k3 le' u? (fun z => by rw [k4]; exact hf z)]
    cases u? with
    | none => rfl
    | some u =>
      unfold fromBelow
      simp only
      rw [sidE e le.1, sidE u (hu u rfl).1, k4, k2]
  · rw [compute_value (c := c) (by rw [m1]; exact fc) m4 la'' (some e) (by simp)]
    unfold fromBelow
    simp only
    rw [m1, sidE e le.1, sidE a la.1, if_neg hop, if_neg hop, m2, k2]

/-- The recomputed values when the events below overlap. -/
theorem checkBelow_value (g : c.Good) {op : MixOp} {M : Mix} {p : Point} (h : Inv0 c M.lin p) (hl : Len M)
    {e b : ℕ} (he : e ∈ M.lin.sweepLine) (hb : b ∈ M.lin.sweepLine) (hbe : b ≠ e)
    (hr : Ret c M.lin b e) (hop : opB c (M.lin.sid e) ≠ opB c (M.lin.sid b)) {A B : List ℕ}
    (hT : M.lin.sweepLine = A ++ [b] ++ e :: B) :
    flag (M.checkBelow op e (some b)).other e =
      fromBelow c M.lin (fun i => M.interior.getD i false) (flag M.other) e (some b) ∧
    flag (M.checkBelow op e (some b)).other b = (match A.getLast? with
      | none => flag M.other b
      | some bb => fromBelow c M.lin (fun i => M.interior.getD i false) (flag M.other) b (some bb)) := by
  have le := h.isL he
  have lb := h.isL hb
  obtain ⟨k1, k2, k3, k4, k5, k6⟩ := detectIntersection_sim M hl lb.1 le.1
  obtain ⟨i, x, _⟩ := detectIntersection_spec g h hb he hbe
  have hr' := (ret_iff g h.wf lb le).mpr hr
  unfold Mix.checkBelow
  simp only
  rw [if_pos hr']
  generalize hN : (M.detectIntersection b e).1 = N at *
  have le' : e < cnt N.lin := by rw [k1]; exact (x.isL le).1
  have lb' : b < cnt N.lin := by rw [k1]; exact (x.isL lb).1
  have iN : Inv0 c N.lin p := by rw [k1]; exact i
  have hTN : N.lin.sweepLine = A ++ b :: (e :: B) := by rw [k1, x.sweepLine, hT]; simp
  have hbel : N.lin.below b = A.getLast? := (iN.split hTN).below hTN
  rw [hbel]
  obtain ⟨m1, m2, m3, m4, m5, m6⟩ := computeFields_sim op N k3 lb' A.getLast?
  have le'' : e < cnt (N.computeFields op b A.getLast?).lin := by rw [m1]; exact le'
  obtain ⟨n1, n2, n3, n4, n5, n6⟩ := computeFields_sim op (N.computeFields op b A.getLast?) m4 le'' (some b)
  have sidE : ∀ y, y < cnt M.lin → N.lin.sid y = M.lin.sid y := fun y hy => by rw [k1]; exact x.sid y hy
  have fc : N.lin.firstCount = c.F := by rw [k1]; exact i.wf.fc
  constructor
  · rw [compute_value (c := c) (by rw [m1]; exact fc) m4 le'' (some b) (by simp)]
    unfold fromBelow
    simp only
    rw [m1, sidE e le.1, sidE b lb.1, if_neg hop, if_neg hop, m2, k2]
  · rw [n5, if_neg (half_ne lb.2 le.2 hbe)]
    cases hA : A.getLast? with
    | none =>
      rw [hA] at m5
      rw [m5, if_pos rfl]
      simp only
      exact k4 b
    | some bb =>
      have mbb : bb ∈ M.lin.sweepLine := by
        rw [hT]; simp [List.mem_of_getLast? hA]
      rw [compute_value (c := c) fc k3 lb' (some bb) (by simp)]
      unfold fromBelow
      simp only
      rw [sidE b lb.1, sidE bb (h.isL mbb).1, k4, k2]

end Rene.Sweep
