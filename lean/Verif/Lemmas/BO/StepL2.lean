import Verif.Lemmas.BO.StepL

/-! Processing a left event before the first bad contact, continued. -/

namespace Rene.BO
open Rene Spec Sweep

variable {c : Ctx} {β : ℚ} {R R' : Reg} {p : Point} {ids : List ℕ}

/-- A step which finds nothing bad. -/
structure Nice (c : Ctx) (β : ℚ) (Z X : Reg) (p : Point) (ids : List ℕ) : Prop where
  base : Base c β X p ids
  mv : Mv Z X
  line : X.lin.sweepLine = Z.lin.sweepLine
  new : ∀ x, cnt Z.lin ≤ x → x < cnt X.lin → β < lx c X.lin x
  rx : ∀ x, IsL Z.lin x → rx c X.lin x ≤ rx c Z.lin x

theorem Nice.refl {Z : Reg} (h : Base c β Z p ids) : Nice c β Z Z p ids :=
  ⟨h, Mv.refl _, rfl, fun _ h1 h2 => absurd h2 (not_lt.mpr h1), fun _ _ => le_rfl⟩

theorem Nice.trans {X Y Z : Reg} (h : Nice c β X Y p ids) (h' : Nice c β Y Z p ids) : Nice c β X Z p ids := by
  refine ⟨h'.base, h.mv.trans h'.mv, h'.line.trans h.line, fun x k1 k2 => ?_,
    fun x hx => (h'.rx x (h.mv.isL hx)).trans (h.rx x hx)⟩
  by_cases k : x < cnt Y.lin
  · rw [h'.mv.lx k]; exact h.new x k1 k
  · exact h'.new x (not_lt.mp k) k2

theorem Nice.core {Z X : Reg} (h : Nice c β Z X p ids) (hb : Base c β Z p ids) (hc : Core c β Z p) : Core c β X p :=
  hc.res hb h.base h.mv ⟨h.line, h.new⟩

/-- The first intersection test of a left event. -/
def firstTest (Z : Reg) (e : ℕ) : Option ℕ → Reg
  | some b => Z.detectIntersection b e
  | none => Z

theorem leftOne_eq (P : Reg) (e : ℕ) : leftOne P e = firstTest (P.add e) e ((P.add e).below e) := by
  unfold leftOne
  cases (P.add e).below e <;> rfl

/-- The intersection test: a failed `assert`, doom, or nothing bad. -/
theorem nice_detect (gd : c.Good0) (hβ : ∀ i j t, Bad c i j t → β ≤ t) {b a : ℕ} (h : Base c β R p ids)
    (hb : IsL R.lin b) (ha : IsL R.lin a) (lb : lx c R.lin b ≤ c.X p) (la : lx c R.lin a ≤ c.X p) :
    (R.detectIntersection b a).lin.ok = false ∨
      (Base c β (R.detectIntersection b a) p ids ∧ Mv R (R.detectIntersection b a) ∧
        Doom c β (R.detectIntersection b a) p ids) ∨
      (Nice c β R (R.detectIntersection b a) p ids ∧ Clear c β R (R.detectIntersection b a) b a) := by
  rcases res_detect gd hβ h hb ha lb la with k | ⟨r, k⟩
  · exact Or.inl k
  · rcases k with k | k
    · exact Or.inr (Or.inl ⟨r.base, r.mv, k⟩)
    · rcases r.alt with l | ⟨_, l2, l3⟩
      · exact Or.inr (Or.inl ⟨r.base, r.mv, l⟩)
      · exact Or.inr (Or.inr ⟨⟨r.base, r.mv, l2, l3, r.rx⟩, k⟩)

section
variable {e : ℕ} (gd : c.Good0) (hβ : ∀ i j t, Bad c i j t → β ≤ t) (hb : Base c β R p ids) (h : Clean c β R p)
  (low : Low c R e) (hp : lx c R.lin e = c.X p) (h0 : e % 2 = 0)
include gd hβ hb h low hp h0

theorem leftTwo_eq (hf : (pop R e).find e = none) : (pop R e).processLeft e = leftTwo (leftOne (pop R e) e) e := by
  rw [processLeft_none hf]; rfl

/-- No collinear event on the line. -/
theorem left_plain (hN : ∀ x ∈ R.lin.sweepLine, ¬ CollE c R.lin x e) (hf : (pop R e).find e = none) :
    ((pop R e).processLeft e).lin.ok = false ∨ Doom c β ((pop R e).processLeft e) p (ids ++ [R.sid e]) ∨
      Clean c β ((pop R e).processLeft e) p := by
  have he := left_lt hb h low hp h0
  have el := left_isL hb h low hp h0
  have hle : lx c R.lin e ≤ c.X p := hp.le
  obtain ⟨b0, _⟩ := base_pop hb low.mem hp
  have rxp := fun x (hx : x ∈ R.lin.sweepLine) => left_rx hb h low hp h0 hx
  have lre := hb.wf.lr e el
  have key : ∀ x ∈ R.lin.sweepLine, ((pop R e).lt x e = true ↔ Ab c R.lin x e) := by
    intro x hx
    exact lt_iff (Z := pop R e) b0.wf (hb.sl x hx).1 el (by have := (hb.sl x hx).2; show lx c R.lin x ≤ rx c R.lin e; linarith)
      (by have := rxp x hx; show lx c R.lin e ≤ rx c R.lin x; linarith) (hN x hx)
  have tot : ∀ x ∈ R.lin.sweepLine, Ab c R.lin x e ∨ Ab c R.lin e x := by
    intro x hx
    rcases aboveR_total (m := max (lx c R.lin x) (lx c R.lin e)) (hN x hx) with k | k
    · exact Or.inl k
    · right; unfold Ab; rw [max_comm]; exact k
  have hpre : R.lin.sweepLine.Pairwise (fun x y => (pop R e).lt y e = true → (pop R e).lt x e = true) := by
    refine (left_prefix gd hb h low hp h0).imp_of_mem fun {x y} hx hy k => ?_
    rw [key x hx, key y hy]; exact k
  have hA : ∀ x ∈ R.lin.sweepLine.takeWhile (fun x => (pop R e).lt x e), Ab c R.lin x e := fun x hx =>
    (key x ((List.takeWhile_sublist _).mem hx)).mp (takeWhile_prop (P := fun x => (pop R e).lt x e) x hx)
  have hB : ∀ x ∈ R.lin.sweepLine.dropWhile (fun x => (pop R e).lt x e), Ab c R.lin e x := by
    intro x hx
    have hxT := (List.dropWhile_sublist _).mem hx
    have := dropWhile_prop (P := fun x => (pop R e).lt x e) hpre x hx
    rcases tot x hxT with z | z
    · have := (key x hxT).mpr z; simp_all
    · exact z
  have hT : R.lin.sweepLine = R.lin.sweepLine.takeWhile (fun x => (pop R e).lt x e) ++
    R.lin.sweepLine.dropWhile (fun x => (pop R e).lt x e) := (List.takeWhile_append_dropWhile).symm
  obtain ⟨b1, mv1⟩ := base_add b0 (e := e) el hle (fun k => ((mem_pop hb.qnd).mp k).1 rfl)
  have hZ : ((pop R e).add e).lin = { (pop R e).lin with sweepLine :=
    (R.lin.sweepLine.takeWhile (fun x => (pop R e).lt x e)) ++ e ::
      (R.lin.sweepLine.dropWhile (fun x => (pop R e).lt x e)) } := rfl
  rw [leftTwo_eq gd hβ hb h low hp h0 hf]
  rw [leftOne_eq]
  generalize (pop R e).add e = Z at *
  generalize R.lin.sweepLine.takeWhile (fun x => (pop R e).lt x e) = A at *
  generalize R.lin.sweepLine.dropWhile (fun x => (pop R e).lt x e) = B at *
  have core0 : Core c β Z p := left_core gd hb h low hp h0 hT hA hB hZ
  have lineZ : Z.lin.sweepLine = A ++ e :: B := by rw [hZ]
  have sp := core0.split b1 lineZ
  rw [split_below sp lineZ]
  have cntZ : cnt Z.lin = cnt R.lin := by rw [hZ]; rfl
  have elZ : IsL Z.lin e := mv1.isL el
  have leZ : lx c Z.lin e ≤ c.X p := by rw [mv1.lx (e := e) el.1]; exact hle
  have inZ : ∀ x ∈ R.lin.sweepLine, IsL Z.lin x := fun x hx => mv1.isL (hb.sl x hx).1
  -- after the first test
  have one : ∀ X : Reg, X = firstTest Z e A.getLast? → X.lin.ok = false ∨ (Base c β X p (ids ++ [R.sid e]) ∧ Mv Z X ∧ Doom c β X p (ids ++ [R.sid e])) ∨
      (Nice c β Z X p (ids ++ [R.sid e]) ∧ ∀ b ∈ A.getLast?, Ck c X.lin b e) := by
    intro X hX
    cases hAl : A.getLast? with
    | none => rw [hAl] at hX; rw [hX]; exact Or.inr (Or.inr ⟨Nice.refl b1, fun b hb => by cases hb⟩)
    | some b =>
      rw [hAl] at hX
      rw [hX]
      have mb : b ∈ Z.lin.sweepLine := by rw [lineZ]; exact List.mem_append_left _ (List.mem_of_getLast? hAl)
      rcases nice_detect gd hβ b1 (b1.sl b mb).1 elZ (b1.sl b mb).2 leZ with k | k | ⟨k, k'⟩
      · exact Or.inl k
      · exact Or.inr (Or.inl k)
      · refine Or.inr (Or.inr ⟨k, fun b' hb' => ?_⟩)
        cases hb'
        exact k'.2.2
  generalize hX : firstTest Z e A.getLast? = X
  have hX' := one X hX.symm
  rcases hX' with k | ⟨bX, mvX, dX⟩ | ⟨nX, ckX⟩
  · left
    unfold leftTwo
    cases X.above e with
    | none => exact k
    | some a => exact detect_ok k
  · rcases leftTwo_doom gd hβ bX (mvX.isL elZ) (by rw [mvX.lx elZ.1]; exact leZ) dX with k | k
    · exact Or.inl k
    · exact Or.inr (Or.inl k)
  · have coreX := nX.core b1 core0
    have lineX : X.lin.sweepLine = A ++ e :: B := by rw [nX.line, lineZ]
    have spX := coreX.split nX.base lineX
    -- after the second test
    have two : (leftTwo X e).lin.ok = false ∨ Doom c β (leftTwo X e) p (ids ++ [R.sid e]) ∨
        (Nice c β X (leftTwo X e) p (ids ++ [R.sid e]) ∧ ∀ a ∈ B.head?, Ck c (leftTwo X e).lin e a) := by
      unfold leftTwo
      rw [split_above spX lineX]
      cases hBh : B.head? with
      | none => exact Or.inr (Or.inr ⟨Nice.refl nX.base, fun b hb => by cases hb⟩)
      | some a =>
        simp only
        have ma : a ∈ X.lin.sweepLine := by
          rw [lineX]; exact List.mem_append_right _ (List.mem_cons_of_mem _ (List.mem_of_head? hBh))
        rcases nice_detect gd hβ nX.base (nX.mv.isL elZ) (nX.base.sl a ma).1 (by rw [nX.mv.lx elZ.1]; exact leZ)
          (nX.base.sl a ma).2 with k | k | ⟨k, k'⟩
        · exact Or.inl k
        · exact Or.inr (Or.inl k.2.2)
        · refine Or.inr (Or.inr ⟨k, fun b' hb' => ?_⟩)
          cases hb'
          exact k'.2.2
    generalize leftTwo X e = Y at two ⊢
    rcases two with k | k | ⟨nY, ckY⟩
    · exact Or.inl k
    · exact Or.inr (Or.inl k)
    · right; right
      have n := nX.trans nY
      have coreY := n.core b1 core0
      have lineY : Y.lin.sweepLine = A ++ e :: B := by rw [n.line, lineZ]
      have rxZ : ∀ x, IsL R.lin x → rx c Y.lin x ≤ rx c R.lin x := by
        intro x hx
        have := n.rx x (mv1.isL hx)
        have e2 : rx c Z.lin x = rx c R.lin x := by rw [hZ]; rfl
        rw [e2] at this; exact this
      have mvR : Mv (pop R e) Y := mv1.trans n.mv
      have hch := h.chain
      rw [hT] at hch
      have mT : ∀ x, x ∈ A ++ B → x ∈ R.lin.sweepLine := fun x hx => by rw [hT]; exact hx
      have chainY : (A ++ e :: B).IsChain (Ck c Y.lin) := by
        rw [List.isChain_append, List.isChain_cons]
        refine ⟨chain_res (R := pop R e) hch.left_of_append (fun x hx => (hb.sl x (mT x (List.mem_append_left _ hx))).1) mvR rxZ,
          ⟨ckY, chain_res (R := pop R e) hch.right_of_append
            (fun x hx => (hb.sl x (mT x (List.mem_append_right _ hx))).1) mvR rxZ⟩, ?_⟩
        intro b hbA y hy
        cases hy
        have mb := mT b (List.mem_append_left _ (List.mem_of_getLast? hbA))
        exact (ckX b hbA).res nY.mv nY.rx (nX.mv.isL (inZ b mb)) (nX.mv.isL elZ)
      refine ⟨coreY, by rw [lineY]; exact chainY, h.nab, Or.inr ?_⟩
      rw [lineY]
      intro x hx fx ix
      have sortedY := coreY.sorted
      rw [lineY] at sortedY
      have eA : e ∈ A ++ e :: B := by simp
      have sidY : ∀ y, IsL R.lin y → Y.lin.sid y = R.lin.sid y := fun y hy => mvR.lsid hy
      have lxY : ∀ y, y < cnt R.lin → lx c Y.lin y = lx c R.lin y := fun y hy => mvR.lx (R := pop R e) hy
      obtain ⟨a, ha, b, hb', k1, k2, k3, k4, k5⟩ := walkC sortedY chainY (t := c.X p) (w := p.y)
        (fun y hy => (n.base.sl y (by rw [lineY]; exact hy)).2)
        (fun y hy => coreY.le_rx' n.base (by rw [lineY]; exact hy)) (fun y => lx c Y.lin y = c.X p) eA hx
        (by rw [sidY e el]; exact left_on gd hb h low hp h0) fx (by rw [lxY e el.1]; exact hp)
        (fun g => by have := ix.1; linarith)
      have hbe : b ≠ e := fun g => k2 (by rw [g, lxY e el.1]; exact hp)
      have hbT : b ∈ R.lin.sweepLine := by
        apply mT
        simp only [List.mem_append, List.mem_cons] at hb' ⊢; tauto
      have hbY : b ∈ Y.lin.sweepLine := by rw [lineY]; exact hb'
      refine k5 ⟨lt_of_le_of_ne (n.base.sl b hbY).2 k2, ?_⟩
      obtain ⟨⟨l1, l2⟩, _⟩ := (h.tmem b).mp hbT
      have r1 := rxp b hbT
      have r2 := hb.wf.inB b (hb.sl b hbT).1
      rw [h.sid hb l1 l2] at r2
      have pb := hb.pβ
      rcases coreY.rx_or n.base l1 l2 with z | z
      · rw [z]; linarith
      · linarith

end

end Rene.BO
