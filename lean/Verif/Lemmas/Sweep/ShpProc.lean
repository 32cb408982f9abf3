import Verif.Lemmas.Sweep.ShpStep

/-! One iteration of the shaped engine for a left event. -/

namespace Rene.Sweep
open Rene Spec

variable {c : Ctx}

/-- Vertical segments in terms of the sheared lines. -/
theorem vert_iff {S : Shp} {x : ℕ} (w : Wf c S.lin) (hx : IsL S.lin x) :
    S.isVertical x = decide (c.ε * c.K (S.lin.sid x) = 1) := by
  unfold Shp.isVertical
  rw [decide_eq_decide]
  have h1 := w.onL x hx
  have h2 := w.onR x hx
  have h3 := w.lr x hx
  unfold lx rx at h3
  have e1 : (S.lin.end x).y - (S.lin.start x).y = c.K (S.lin.sid x) * (c.X (S.lin.end x) - c.X (S.lin.start x)) := by
    unfold Ctx.On Ctx.f at h1 h2
    linear_combination h2 - h1
  have e2 : c.X (S.lin.end x) - c.X (S.lin.start x) =
      ((S.lin.end x).x - (S.lin.start x).x) + c.ε * ((S.lin.end x).y - (S.lin.start x).y) := by
    unfold Ctx.X; ring
  have e3 : (1 - c.ε * c.K (S.lin.sid x)) * (c.X (S.lin.end x) - c.X (S.lin.start x)) =
      (S.lin.end x).x - (S.lin.start x).x := by
    rw [e1] at e2
    linear_combination e2
  constructor
  · intro h
    rw [h, sub_self] at e3
    rcases mul_eq_zero.mp e3 with k | k
    · linarith
    · linarith
  · intro h
    rw [h, sub_self, zero_mul] at e3
    linarith

/-- The selection flags are up to date. -/
def SFr (op : ShpOp) (S : Shp) (D : ℕ → Prop) : Prop :=
  ∀ x, x % 2 = 0 → D x → flag S.fromResult x = op.detects S x

/-- The fields of the event other than the selection are kept. -/
structure Keep (S S' : Shp) (x : ℕ) : Prop where
  kind : S'.kind x = S.kind x
  other : flag S'.other x = flag S.other x
  below : bel S' x = bel S x

theorem Keep.refl (S : Shp) (x : ℕ) : Keep S S x := ⟨rfl, rfl, rfl⟩
theorem Keep.trans {S S' S'' : Shp} {x : ℕ} (h : Keep S S' x) (h' : Keep S' S'' x) : Keep S S'' x :=
  ⟨h'.1.trans h.1, h'.2.trans h.2, h'.3.trans h.3⟩

theorem Keep.detects {S S' : Shp} {x : ℕ} (h : Keep S S' x) (op : ShpOp) (w : Wf c S.lin) (w' : Wf c S'.lin)
    (hs : S'.lin.sid x = S.lin.sid x) : op.detects S' x = op.detects S x := by
  rw [sdetects_eq, sdetects_eq, h.kind, h.other]
  congr 1
  unfold Lin.leftFirst
  rw [hs, w.fc, w'.fc]

theorem Keep.BR {S S' : Shp} {x : ℕ} (h : Keep S S' x) (op : ShpOp) (w : Wf c S.lin) (w' : Wf c S'.lin)
    (hx : IsL S.lin x) (hx' : IsL S'.lin x) (hs : S'.lin.sid x = S.lin.sid x) :
    BR op S' (some x) = BR op S (some x) := by
  show (if (!op.detects S' x || S'.isVertical x) = true then bel S' x else some x) =
    (if (!op.detects S x || S.isVertical x) = true then bel S x else some x)
  rw [h.detects op w w' hs, h.below, vert_iff w hx, vert_iff w' hx', hs]

/-- The test of two neighbours together with the recomputation of their fields. -/
structure SChk (c : Ctx) (op : ShpOp) (T T' : Shp) (lo hi : ℕ) (u? : Option ℕ) : Prop where
  lin : T'.lin = T.lin.detectIntersection lo hi
  interior : T'.interior = T.interior
  len : SLen T'
  starts : ∀ x, T'.startsIds.getD x none = T.startsIds.getD x none
  first : T'.currentFirst = T.currentFirst
  id : T'.currentId = T.currentId
  fr : ∀ D : ℕ → Prop, (∀ x, D x → IsL T.lin x) → SFr op T D → SFr op T' D
  keep : ∀ x, x % 2 = 0 → (¬ Ret c T.lin lo hi ∨ (x ≠ lo ∧ x ≠ hi)) → Keep T T' x
  kind : Ret c T.lin lo hi → ∀ x, x = lo ∨ x = hi →
    T'.kind x = kindOf (fun i => T.interior.getD i false) (T.lin.sid hi) (T.lin.sid lo)
  belowLo : Ret c T.lin lo hi → ∀ u, u? = some u → bel T' lo = BR op T' (some u)
  belowNo : Ret c T.lin lo hi → u? = none → bel T' lo = bel T lo
  belowHi : Ret c T.lin lo hi → bel T' hi = BR op T' (some lo)

theorem SComp.keep {op : ShpOp} {S S' : Shp} {e : ℕ} {b? : Option ℕ} (h : SComp op S S' e b?) {x : ℕ}
    (hx : x % 2 = 0) (hxe : x ≠ e) : Keep S S' x :=
  ⟨by unfold Shp.kind; rw [h.kinds], h.other x hx hxe, h.below x hx hxe⟩

theorem SComp.fr {op : ShpOp} {S S' : Shp} {e : ℕ} {b? : Option ℕ} (h : SComp op S S' e b?) {D : ℕ → Prop}
    (w : Wf c S.lin) (hD : SFr op S D) : SFr op S' (fun x => D x ∨ x = e) := by
  intro x hx hDx
  by_cases hxe : x = e
  · rw [hxe]; exact h.fromResultE
  · have w' : Wf c S'.lin := by rw [h.lin]; exact w
    rw [h.fromResult x hx hxe, hD x hx (hDx.resolve_right hxe)]
    exact ((h.keep hx hxe).detects op w w' (by rw [h.lin])).symm

/-- Both tests have this form. -/
def chk (op : ShpOp) (T : Shp) (lo hi : ℕ) (u? : Option ℕ) : Shp :=
  if (T.detectIntersection lo hi).2 = true then
    ((T.detectIntersection lo hi).1.computeFields op lo u?).computeFields op hi (some lo)
  else (T.detectIntersection lo hi).1

theorem sret_iff (g : c.Good) {T : Shp} {b e : ℕ} (w : Wf c T.lin) (hb : IsL T.lin b) (he : IsL T.lin e) :
    (T.detectIntersection b e).2 = true ↔ Ret c T.lin b e := by
  obtain ⟨M, hM⟩ := Rel.exists T
  rw [(hM.detectIntersection b e).2, hM.lin]
  rw [hM.lin] at w hb he
  exact ret_iff g w hb he

theorem chk_spec (g : c.Good) {op : ShpOp} {T : Shp} {p : Point} (h : Inv0 c T.lin p) (hl : SLen T) {lo hi : ℕ}
    (ha : lo ∈ T.lin.sweepLine) (hb : hi ∈ T.lin.sweepLine) (hab : lo ≠ hi) {u? : Option ℕ}
    (hu : ∀ u, u? = some u → IsL T.lin u ∧ u ≠ lo ∧ u ≠ hi) : SChk c op T (chk op T lo hi u?) lo hi u? := by
  have la := h.isL ha
  have lb := h.isL hb
  have k := detectIntersection_sdet T hl la.1 lb.1
  obtain ⟨i, x, _⟩ := detectIntersection_spec g h ha hb hab
  have rr := sret_iff g h.wf la lb
  unfold chk
  generalize hN : (T.detectIntersection lo hi).1 = N at *
  rw [← k.lin] at i x
  have w' := i.wf
  have sid : ∀ y, IsL T.lin y → N.lin.sid y = T.lin.sid y := fun y hy => x.sid y hy.1
  have keep0 : ∀ y, y % 2 = 0 → (¬ Ret c T.lin lo hi ∨ (y ≠ lo ∧ y ≠ hi)) → Keep T N y := by
    intro y hy hn
    refine ⟨?_, k.other y, k.below y⟩
    rw [k.kinds, if_neg]
    rintro ⟨z1, z2⟩
    rw [half_iff hy la.2, half_iff hy lb.2] at z2
    rcases hn with z | z
    · exact z (rr.mp z1)
    · tauto
  have fr0 : ∀ D : ℕ → Prop, (∀ x, D x → IsL T.lin x ∧ (¬ Ret c T.lin lo hi ∨ (x ≠ lo ∧ x ≠ hi))) → SFr op T D →
      SFr op N D := by
    intro D hD f y hy hDy
    obtain ⟨z1, z2⟩ := hD y hDy
    rw [k.fromResult, f y hy hDy, (keep0 y z1.2 z2).detects op h.wf w' (sid y z1)]
  by_cases hr : (T.detectIntersection lo hi).2 = true
  · have hret := rr.mp hr
    rw [if_pos hr]
    have la' : lo < cnt N.lin := (x.isL la).1
    have lb' : hi < cnt N.lin := (x.isL lb).1
    have c1 := computeFields_scomp op N k.len la' la.2 u? (fun u z => ⟨(hu u z).1.2, (hu u z).2.1⟩)
    generalize N.computeFields op lo u? = O at *
    have c2 := computeFields_scomp op O c1.len (by rw [c1.lin]; exact lb') lb.2 (some lo)
      (fun u z => by cases z; exact ⟨la.2, hab⟩)
    generalize O.computeFields op hi (some lo) = Q at *
    have wO : Wf c O.lin := by rw [c1.lin]; exact w'
    have wQ : Wf c Q.lin := by rw [c2.lin]; exact wO
    refine ⟨by rw [c2.lin, c1.lin, k.lin], by rw [c2.interior, c1.interior, k.interior], c2.len, fun y => ?_,
      by rw [c2.first, c1.first, k.first], by rw [c2.id, c1.id, k.id], fun D hD f => ?_, fun y hy hn => ?_,
      fun _ y hy => ?_, fun _ u hu' => ?_, fun _ hu' => ?_, fun _ => ?_⟩
    · rw [c2.starts, c1.starts, k.starts]
    · have f1 := fr0 (fun y => D y ∧ y ≠ lo ∧ y ≠ hi) (fun y hy => ⟨hD y hy.1, Or.inr hy.2⟩)
        (fun y hy z => f y hy z.1)
      have f2 := c2.fr wO (c1.fr w' f1)
      intro y hy hDy
      refine f2 y hy ?_
      by_cases e1 : y = lo
      · exact Or.inl (Or.inr e1)
      · by_cases e2 : y = hi
        · exact Or.inr e2
        · exact Or.inl (Or.inl ⟨hDy, e1, e2⟩)
    · have hn' := hn.resolve_left (fun z => z hret)
      exact ((keep0 y hy hn).trans (c1.keep hy hn'.1)).trans (c2.keep hy hn'.2)
    · have : Q.kind y = N.kind y := by unfold Shp.kind; rw [c2.kinds, c1.kinds]
      have hy2 : y % 2 = 0 := by rcases hy with rfl | rfl; exacts [la.2, lb.2]
      have hh : y / 2 = lo / 2 ∨ y / 2 = hi / 2 := by
        rcases hy with rfl | rfl
        · exact Or.inl rfl
        · exact Or.inr rfl
      rw [this, k.kinds, if_pos ⟨hr, hh⟩, sid hi lb, sid lo la]
    · obtain ⟨u1, u2, u3⟩ := hu u hu'
      rw [c2.below lo la.2 hab, c1.belowE u hu']
      have uL : IsL O.lin u := by rw [c1.lin]; exact x.isL u1
      exact ((c2.keep u1.2 u3).BR op wO wQ uL (by rw [c2.lin]; exact uL) (by rw [c2.lin])).symm
    · rw [c2.below lo la.2 hab, c1.belowN hu', k.below]
    · exact c2.belowE lo rfl
  · have hret : ¬ Ret c T.lin lo hi := fun z => hr (rr.mpr z)
    rw [if_neg hr]
    exact ⟨k.lin, k.interior, k.len, k.starts, k.first, k.id,
      fun D hD f => fr0 D (fun y hy => ⟨hD y hy, Or.inl hret⟩) f, fun y hy hn => keep0 y hy hn,
      fun z => absurd z hret, fun z => absurd z hret, fun z => absurd z hret, fun z => absurd z hret⟩

/-- The state of the shaped engine with another state of the linear one. -/
theorem number_eq (S : Shp) (L L' : Lin) (e : ℕ) (h : L.start = L'.start) :
    ({ S with lin := L } : Shp).number e = { ({ S with lin := L' } : Shp).number e with lin := L } := by
  unfold Shp.number
  simp only [h]
  split <;> rfl

/-- What an iteration for a left event does. -/
structure ShpLeft (c : Ctx) (op : ShpOp) (S S' : Shp) (e : ℕ) (A B : List ℕ) (S3 : Lin) : Prop where
  lin : S'.lin = S3
  interior : S'.interior = S.interior
  len : SLen S'
  starts : ∀ x, S'.startsIds.getD x none = (S.number e).startsIds.getD x none
  first : S'.currentFirst = (S.number e).currentFirst
  id : S'.currentId = (S.number e).currentId
  fr : ∀ D : ℕ → Prop, (∀ x, D x → IsL S.lin x) → SFr op S D → SFr op S' (fun x => D x ∨ x = e)
  keep : ∀ x, x % 2 = 0 → x ≠ e → ¬ (B.head? = some x ∧ Ret c S.lin e x) →
    ¬ (A.getLast? = some x ∧ Ret c S.lin x e) → Keep S S' x
  kindE : (∀ a, B.head? = some a → ¬ Ret c S.lin e a) → (∀ b, A.getLast? = some b → ¬ Ret c S.lin b e) →
    S'.kind e = S.kind e
  kindA : ∀ a, B.head? = some a → Ret c S.lin e a → ∀ x, x = e ∨ x = a →
    S'.kind x = kindOf (fun i => S.interior.getD i false) (S.lin.sid a) (S.lin.sid e)
  kindB : ∀ b, A.getLast? = some b → Ret c S.lin b e → ∀ x, x = b ∨ x = e →
    S'.kind x = kindOf (fun i => S.interior.getD i false) (S.lin.sid e) (S.lin.sid b)
  belE : bel S' e = BR op S' A.getLast?
  belA : ∀ a, B.head? = some a → Ret c S.lin e a → bel S' a = BR op S' (some e)
  belB : ∀ A' b, A = A' ++ [b] → Ret c S.lin b e → ∀ u, A'.getLast? = some u → bel S' b = BR op S' (some u)
  belB0 : ∀ b, A = [b] → Ret c S.lin b e → bel S' b = bel S b

section
variable {op : ShpOp} {S : Shp} {p : Point} {e : ℕ} {A B : List ℕ} {S2 S3 : Lin}

theorem shp_left_eq (h : Inv c S.lin p) (hl : isLeft e = true) (lp : LeftParts c S.lin p e A B S2 S3) :
    S.process op e = (((({ S.number e with lin := insertedAt S.lin e A B } : Shp).computeFields op e
      A.getLast?).checkAbove op e B.head? A.getLast?).checkBelow op e A.getLast?, true) := by
  have hqok : S.lin.queueOk = true := h.wf.queueOk h.qlt
  have hT1 : (insertedAt S.lin e A B).sweepLine = A ++ e :: B := rfl
  have hsp := lp.inv1.split (A := A) (B := B) (o := e) hT1
  unfold Shp.process
  rw [if_pos hl]
  have e0 : ({ S with lin := { S.lin with queue := S.lin.queue.erase e, ok := S.lin.ok && S.lin.queueOk } } : Shp).number
      e = { S.number e with lin := { S.lin with queue := S.lin.queue.erase e } } := by
    rw [hqok, Bool.and_true]
    exact number_eq S _ S.lin e rfl
  simp only [e0]
  unfold Shp.processLeft
  have hf' : Lin.find { S.lin with queue := S.lin.queue.erase e } e = none := lp.find
  have ha' : Lin.add { S.lin with queue := S.lin.queue.erase e } e = insertedAt S.lin e A B := by
    show Lin.mk S.lin.firstCount S.lin.endpoints S.lin.opposites S.lin.segmentsIds (S.lin.queue.erase e)
      (S.lin.add e).sweepLine S.lin.ok = _
    rw [lp.add]; rfl
  simp only
  rw [hf']
  simp only
  rw [ha']
  have fa : (insertedAt S.lin e A B).above e = B.head? := hsp.above hT1
  have fb : (insertedAt S.lin e A B).below e = A.getLast? := hsp.below hT1
  rw [fb]
  have e1 : (({ S.number e with lin := insertedAt S.lin e A B } : Shp).computeFields op e A.getLast?).lin =
      insertedAt S.lin e A B := by
    cases A.getLast? <;> rfl
  rw [e1, fa]

theorem shp_left (g : c.Good) (h : Inv c S.lin p) (l : Least c S.lin e) (hp : lx c S.lin e = c.X p)
    (hl : isLeft e = true) (lp : LeftParts c S.lin p e A B S2 S3) (hlen : SLen S) (hfresh : bel S e = none) :
    (S.process op e).2 = true ∧ ShpLeft c op S (S.process op e).1 e A B S3 := by
  obtain ⟨he, hr, heT, hop⟩ := h.leftBasic l hp hl
  rw [shp_left_eq h hl lp]
  refine ⟨rfl, ?_⟩
  simp only
  have popL : ∀ y, y ∈ A ∨ y ∈ B → IsL S.lin y ∧ y ≠ e := fun y hy => by
    have := lp.popA h hy
    exact ⟨this.1, by rintro rfl; exact this.2 l.mem⟩
  have hop' : ∀ y, y ∈ A ∨ y ∈ B → CollE c S.lin y e → opB c (S.lin.sid y) ≠ opB c (S.lin.sid e) := by
    intro y hy hc hoe
    refine hop y ?_ hc ?_
    · rw [lp.sweep]; simpa using hy
    · unfold SameOp; unfold opB at hoe; rwa [decide_eq_decide] at hoe
  have nd : (A ++ e :: B).Nodup := lp.inv1.tnd
  have ndp := nd
  rw [List.nodup_append] at ndp
  -- two overlapping neighbours are impossible
  have hnot : ∀ a b, B.head? = some a → A.getLast? = some b → Ret c S.lin e a → ¬ Ret c S.lin b e := by
    intro a b ha hb r1 r2
    have ma : a ∈ B := List.mem_of_mem_head? ha
    have mb : b ∈ A := List.mem_of_getLast? hb
    have k1 := hop' a (Or.inr ma) r1.1.symm
    have k2 := hop' b (Or.inl mb) r2.1
    have hab : a ≠ b := by
      rintro rfl
      exact ndp.2.2 a mb a (by simp [ma]) rfl
    have so : SameOp c S.lin a b := by
      unfold SameOp
      unfold opB at k1 k2
      by_cases z1 : S.lin.sid a < c.F <;> by_cases z2 : S.lin.sid b < c.F <;>
        by_cases z3 : S.lin.sid e < c.F <;> simp [z1, z2, z3] at k1 k2 ⊢
    have la := (popL a (Or.inr ma)).1
    have lb := (popL b (Or.inl mb)).1
    have := h.wf.noOv a b la lb hab so (Ctx.Coll.trans r1.1.symm r2.1.symm)
    have e1 : lx c S.lin a = lx c S.lin b := by rw [← r1.2, r2.2]
    have := h.wf.lr a la
    have := h.wf.lr b lb
    rcases ‹_ ∨ _› with z | z <;> linarith
  have nE : S.number e = { S.number e with lin := S.lin } := by
    unfold Shp.number
    split <;> rfl
  have nF : (S.number e).lin = S.lin ∧ (S.number e).interior = S.interior ∧ (S.number e).other = S.other ∧
      (S.number e).fromResult = S.fromResult ∧ (S.number e).kinds = S.kinds ∧
      (S.number e).belowFromResult = S.belowFromResult ∧ (S.number e).startsIds.length = S.startsIds.length := by
    unfold Shp.number
    split <;> exact ⟨rfl, rfl, rfl, rfl, rfl, rfl, List.length_set⟩
  obtain ⟨n1, n2, n3, n4, n5, n6, n7⟩ := nF
  -- the state after the insertion
  generalize hT1 : ({ S.number e with lin := insertedAt S.lin e A B } : Shp) = T1
  have l1 : T1.lin = insertedAt S.lin e A B := by rw [← hT1]
  have i1 : Inv0 c T1.lin p := by rw [l1]; exact lp.inv1
  have len1 : SLen T1 := by
    have cn : cnt T1.lin = cnt S.lin := by rw [l1]; rfl
    rw [← hT1] at cn ⊢
    refine ⟨?_, ?_, ?_, ?_, ?_⟩
    · rw [cn]; show (S.number e).kinds.length * 2 = _; rw [n5]; exact hlen.kinds
    · rw [cn]; show (S.number e).fromResult.length * 2 = _; rw [n4]; exact hlen.fromResult
    · rw [cn]; show (S.number e).belowFromResult.length * 2 = _; rw [n6]; exact hlen.below
    · rw [cn]; show (S.number e).other.length * 2 = _; rw [n3]; exact hlen.other
    · rw [cn]; show (S.number e).startsIds.length = _; rw [n7]; exact hlen.starts
  have in1 : T1.interior = S.interior := by rw [← hT1]; exact n2
  have st1 : T1.startsIds = (S.number e).startsIds := by rw [← hT1]
  have fi1 : T1.currentFirst = (S.number e).currentFirst := by rw [← hT1]
  have id1 : T1.currentId = (S.number e).currentId := by rw [← hT1]
  have sid1 : ∀ x, T1.lin.sid x = S.lin.sid x := by rw [l1]; exact fun x => rfl
  have isL1 : ∀ x, IsL T1.lin x ↔ IsL S.lin x := by rw [l1]; exact fun x => Iff.rfl
  have ret1 : ∀ x y, Ret c T1.lin x y ↔ Ret c S.lin x y := by rw [l1]; exact fun x y => Iff.rfl
  have keep1 : ∀ x, Keep S T1 x := by
    rw [← hT1]
    refine fun x => ⟨?_, ?_, ?_⟩
    · show (S.number e).kinds.getD _ _ = _; rw [n5]; rfl
    · show flag (S.number e).other _ = _; rw [n3]
    · show (S.number e).belowFromResult.getD _ _ = _; rw [n6]; rfl
  have fr1 : ∀ D, SFr op S D → SFr op T1 D := by
    intro D hD x hx hDx
    rw [(keep1 x).detects op h.wf i1.wf (sid1 x), ← hD x hx hDx]
    rw [← hT1]
    show flag (S.number e).fromResult x = _
    rw [n4]
  have he1 : IsL T1.lin e := (isL1 e).mpr he
  have bL : ∀ b, A.getLast? = some b → IsL S.lin b ∧ b ≠ e := fun b hb => popL b (Or.inl (List.mem_of_getLast? hb))
  -- after the first computation
  have c2 := computeFields_scomp op T1 len1 he1.1 he.2 A.getLast? (fun b hb => ⟨(bL b hb).1.2, (bL b hb).2⟩)
  generalize T1.computeFields op e A.getLast? = T2 at *
  have l2 : T2.lin = T1.lin := c2.lin
  have i2 : Inv0 c T2.lin p := by rw [l2]; exact i1
  have w2 := i2.wf
  have TT2 : T2.lin.sweepLine = A ++ e :: B := by rw [l2, l1]; rfl
  have e2 : e ∈ T2.lin.sweepLine := by rw [TT2]; simp
  have isL2 : ∀ x, IsL T2.lin x ↔ IsL S.lin x := by rw [l2]; exact isL1
  have sid2 : ∀ x, T2.lin.sid x = S.lin.sid x := by rw [l2]; exact sid1
  have ret2 : ∀ x y, Ret c T2.lin x y ↔ Ret c S.lin x y := by rw [l2]; exact ret1
  have keep2 : ∀ x, x % 2 = 0 → x ≠ e → Keep S T2 x := fun x hx hxe => (keep1 x).trans (c2.keep hx hxe)
  have fr2 := fun D (hD : SFr op S D) => c2.fr i1.wf (fr1 D hD)
  have belE2 : bel T2 e = BR op T2 A.getLast? := by
    cases hA : A.getLast? with
    | none => rw [c2.belowN hA, (keep1 e).below, hfresh]; rfl
    | some b => exact c2.belowE b hA
  have kindE2 : T2.kind e = S.kind e := by
    rw [← (keep1 e).kind]; unfold Shp.kind; rw [c2.kinds]
  -- after the first check
  have key3 : ∃ T3, T3 = T2.checkAbove op e B.head? A.getLast? ∧ T3.lin = S2 ∧ T3.interior = S.interior ∧ SLen T3 ∧
      (∀ x, T3.startsIds.getD x none = T2.startsIds.getD x none) ∧ T3.currentFirst = T2.currentFirst ∧
      T3.currentId = T2.currentId ∧
      (∀ D : ℕ → Prop, (∀ x, D x → IsL T2.lin x) → SFr op T2 D → SFr op T3 D) ∧
      (∀ x, x % 2 = 0 → ((∀ a, B.head? = some a → ¬ Ret c S.lin e a) ∨ (x ≠ e ∧ B.head? ≠ some x)) → Keep T2 T3 x) ∧
      (∀ a, B.head? = some a → Ret c S.lin e a → (∀ x, x = e ∨ x = a →
        T3.kind x = kindOf (fun i => S.interior.getD i false) (S.lin.sid a) (S.lin.sid e)) ∧
        bel T3 a = BR op T3 (some e)) ∧ bel T3 e = BR op T3 A.getLast? := by
    refine ⟨_, rfl, ?_⟩
    have s2 := lp.s2
    cases hB : B.head? with
    | none =>
      rw [hB] at s2
      exact ⟨by rw [s2, ← l1, ← l2]; rfl, c2.interior.trans in1, c2.len, fun _ => rfl, rfl, rfl, fun D _ hD => hD,
        fun x _ _ => Keep.refl _ _, by simp, belE2⟩
    | some a =>
      rw [hB] at s2
      have s2 : S2 = (insertedAt S.lin e A B).detectIntersection e a := s2
      have ma : a ∈ B := List.mem_of_mem_head? hB
      obtain ⟨aL, ane⟩ := popL a (Or.inr ma)
      have a2 : a ∈ T2.lin.sweepLine := by rw [TT2]; simp [ma]
      have hu : ∀ u, A.getLast? = some u → IsL T2.lin u ∧ u ≠ e ∧ u ≠ a := by
        intro u hu
        refine ⟨(isL2 u).mpr (bL u hu).1, (bL u hu).2, ?_⟩
        rintro rfl
        exact ndp.2.2 u (List.mem_of_getLast? hu) u (by simp [ma]) rfl
      have t : SChk c op T2 (T2.checkAbove op e (some a) A.getLast?) e a A.getLast? := by
        have := chk_spec (op := op) g i2 c2.len e2 a2 ane.symm hu
        unfold chk at this
        unfold Shp.checkAbove
        exact this
      have i3 : Wf c (T2.checkAbove op e (some a) A.getLast?).lin := by
        rw [t.lin, l2, l1, ← s2]; exact lp.inv2.wf
      have sid3 : ∀ x, IsL T2.lin x → (T2.checkAbove op e (some a) A.getLast?).lin.sid x = T2.lin.sid x := by
        intro x hx
        rw [t.lin, l2, l1, ← s2, lp.ext1.sid x]
        have := ((isL2 x).mp hx).1
        exact this
      have isL3 : ∀ x, IsL T2.lin x → IsL (T2.checkAbove op e (some a) A.getLast?).lin x := by
        intro x hx
        rw [t.lin, l2, l1, ← s2]
        exact lp.ext1.isL (((isL2 x).mp hx))
      refine ⟨by rw [t.lin, s2, l2, l1], by rw [t.interior, c2.interior, in1], t.len, t.starts, t.first, t.id,
        t.fr, fun x hx hn => t.keep x hx ?_, fun a' ha' hra => ?_, ?_⟩
      · rcases hn with z | ⟨z1, z2⟩
        · left; rw [ret2]; exact z a rfl
        · right; exact ⟨z1, fun k => z2 (by rw [k])⟩
      · cases ha'
        have hra' := (ret2 _ _).mpr hra
        refine ⟨fun x hx => ?_, t.belowHi hra'⟩
        rw [t.kind hra' x hx, sid2, sid2, c2.interior, in1]
      · by_cases hra : Ret c S.lin e a
        · have hra' := (ret2 _ _).mpr hra
          cases hA : A.getLast? with
          | none =>
            rw [hA] at t belE2
            rw [t.belowNo hra' rfl, belE2]; rfl
          | some b =>
            rw [hA] at t
            exact t.belowLo hra' b rfl
        · have ke := t.keep e he.2 (Or.inl (by rwa [ret2]))
          rw [ke.below, belE2]
          cases hA : A.getLast? with
          | none => rfl
          | some b =>
            rw [← hA]
            obtain ⟨u1, u2, u3⟩ := hu b hA
            have kb := t.keep b u1.2 (Or.inr ⟨u2, u3⟩)
            have := kb.BR op w2 i3 u1 (isL3 b u1) (sid3 b u1)
            rw [hA] at this ⊢
            exact this.symm
  obtain ⟨T3, hT3, l3, in3, len3, st3, fi3, id3, fr3, keep3, yes3, belE3⟩ := key3
  rw [← hT3]
  have i3 : Inv0 c T3.lin p := by rw [l3]; exact lp.inv2
  have w3 := i3.wf
  have TT3 : T3.lin.sweepLine = A ++ e :: B := by rw [l3, lp.ext1.sweepLine]; rfl
  have e3 : e ∈ T3.lin.sweepLine := by rw [TT3]; simp
  have isL3 : ∀ x, IsL S.lin x → IsL T3.lin x := by
    intro x hx; rw [l3]; exact lp.ext1.isL hx
  have sid3 : ∀ x, IsL S.lin x → T3.lin.sid x = S.lin.sid x := by
    intro x hx; rw [l3]; exact lp.ext1.sid x hx.1
  have ret3 : ∀ x y, IsL S.lin x → IsL S.lin y → (Ret c T3.lin x y ↔ Ret c S.lin x y) := by
    intro x y hx hy; rw [l3]; exact lp.ext1.ret hx.1 hy.1
  have fr4 := fun D (hD : ∀ x, D x → IsL S.lin x) (f : SFr op S D) => fr3 (fun x => D x ∨ x = e)
    (fun x hx => (isL2 x).mpr (hx.elim (hD x) (fun z => z ▸ he))) (fr2 D f)
  have keep4 : ∀ x, x % 2 = 0 → x ≠ e → ¬ (B.head? = some x ∧ Ret c S.lin e x) → Keep S T3 x := by
    intro x hx hxe hn
    refine (keep2 x hx hxe).trans (keep3 x hx ?_)
    by_cases hB : B.head? = some x
    · left
      intro a ha z
      rw [hB] at ha; cases ha
      exact hn ⟨hB, z⟩
    · exact Or.inr ⟨hxe, hB⟩
  have st4 : ∀ x, T3.startsIds.getD x none = (S.number e).startsIds.getD x none := by
    intro x; rw [st3, c2.starts, st1]
  have s3 := lp.s3
  cases hA : A.getLast? with
  | none =>
    rw [hA] at s3 belE3
    have hA0 : A = [] := List.getLast?_eq_none_iff.mp hA
    refine ⟨by rw [s3]; exact l3, in3, len3, st4, by show T3.currentFirst = _; rw [fi3, c2.first, fi1],
      by show T3.currentId = _; rw [id3, c2.id, id1], fr4,
      fun x hx hxe hn _ => keep4 x hx hxe hn, fun k1 _ => ?_, fun a ha hra => (yes3 a ha hra).1, by rw [hA]; simp,
      by rw [hA]; exact belE3, fun a ha hra => (yes3 a ha hra).2, fun A' b hAb => ?_, fun b hAb => ?_⟩
    · show T3.kind e = _
      rw [(keep3 e he.2 (Or.inl k1)).kind, kindE2]
    · rw [hA0] at hAb; simp at hAb
    · rw [hA0] at hAb; simp at hAb
  | some b =>
    rw [hA] at s3 belE3
    have s3 : S3 = S2.detectIntersection b e := s3
    have mb : b ∈ A := List.mem_of_getLast? hA
    obtain ⟨bL', bne⟩ := popL b (Or.inl mb)
    have b3 : b ∈ T3.lin.sweepLine := by rw [TT3]; simp [mb]
    obtain ⟨A', hA'⟩ : ∃ A', A = A' ++ [b] := by
      rcases List.eq_nil_or_concat' A with rfl | ⟨A', b', rfl⟩
      · simp at hA
      · rw [List.getLast?_concat, Option.some.injEq] at hA
        subst hA; exact ⟨A', rfl⟩
    have hbel : (T3.detectIntersection b e).1.lin.below b = A'.getLast? := by
      have k := detectIntersection_sdet T3 len3 (i3.isL b3).1 (i3.isL e3).1
      obtain ⟨i, x, _⟩ := detectIntersection_spec g i3 b3 e3 bne
      have hT4 : (T3.lin.detectIntersection b e).sweepLine = A' ++ b :: (e :: B) := by
        rw [x.sweepLine, TT3, hA']; simp
      rw [k.lin]
      exact (i.split hT4).below hT4
    have hu : ∀ u, A'.getLast? = some u → IsL T3.lin u ∧ u ≠ b ∧ u ≠ e := by
      intro u hu
      have mu : u ∈ A' := List.mem_of_getLast? hu
      have mu' : u ∈ A := by rw [hA']; simp [mu]
      refine ⟨isL3 u (popL u (Or.inl mu')).1, ?_, (popL u (Or.inl mu')).2⟩
      rintro rfl
      have := ndp.1
      rw [hA', List.nodup_append] at this
      exact this.2.2 u mu u (by simp) rfl
    have t : SChk c op T3 (T3.checkBelow op e (some b)) b e A'.getLast? := by
      have := chk_spec (op := op) g i3 len3 b3 e3 bne hu
      unfold chk at this
      unfold Shp.checkBelow
      simp only
      rw [hbel]
      exact this
    have lin4 : (T3.checkBelow op e (some b)).lin = S3 := by rw [t.lin, s3, l3]
    generalize T3.checkBelow op e (some b) = T4 at *
    have w4 : Wf c T4.lin := by rw [lin4]; exact lp.inv3.wf
    have isL4 : ∀ x, IsL S.lin x → IsL T4.lin x := by
      intro x hx; rw [lin4]; exact lp.ext2.isL (lp.ext1.isL hx)
    have sid4 : ∀ x, IsL S.lin x → T4.lin.sid x = T3.lin.sid x := by
      intro x hx; rw [lin4, l3]; exact lp.ext2.sid x (lp.ext1.isL hx).1
    have rr := ret3 b e bL' he
    have hnb : ∀ a, B.head? = some a → a ≠ b := by
      rintro a ha rfl
      exact ndp.2.2 a mb a (by simp [List.mem_of_mem_head? ha]) rfl
    have brE : ¬ Ret c S.lin b e → BR op T4 (some e) = BR op T3 (some e) := fun z =>
      (t.keep e he.2 (Or.inl (by rwa [rr]))).BR op w3 w4 (isL3 e he) (isL4 e he) (sid4 e he)
    have brB : ¬ Ret c S.lin b e → BR op T4 (some b) = BR op T3 (some b) := fun z =>
      (t.keep b bL'.2 (Or.inl (by rwa [rr]))).BR op w3 w4 (isL3 b bL') (isL4 b bL') (sid4 b bL')
    refine ⟨lin4, by rw [t.interior, in3], t.len, fun x => by rw [t.starts, st4], by rw [t.first, fi3, c2.first, fi1],
      by rw [t.id, id3, c2.id, id1], fun D hD f => ?_, fun x hx hxe hn1 hn2 => ?_, fun k1 k2 => ?_, fun a ha hra x hx => ?_,
      fun b' hb' hrb x hx => ?_, ?_, fun a ha hra => ?_, fun A2 b' hA2 hrb u hu' => ?_, fun b' hA2 hrb => ?_⟩
    · refine t.fr _ (fun x hx => ?_) (fr4 D hD f)
      exact isL3 x (hx.elim (hD x) (fun z => z ▸ he))
    · refine (keep4 x hx hxe hn1).trans (t.keep x hx ?_)
      by_cases hrb : Ret c S.lin b e
      · right
        refine ⟨?_, hxe⟩
        rintro rfl
        exact hn2 ⟨hA, hrb⟩
      · left; rwa [rr]
    · rw [(t.keep e he.2 (Or.inl (by rw [rr]; exact k2 b hA))).kind,
        (keep3 e he.2 (Or.inl k1)).kind, kindE2]
    · have nrb := hnot a b ha hA hra
      have aL := (popL a (Or.inr (List.mem_of_mem_head? ha))).1
      have xL : IsL S.lin x := by rcases hx with rfl | rfl; exacts [he, aL]
      rw [(t.keep x xL.2 (Or.inl (by rwa [rr]))).kind]
      exact (yes3 a ha hra).1 x hx
    · rw [hA] at hb'
      cases hb'
      rw [t.kind (rr.mpr hrb) x hx, sid3 e he, sid3 b bL', in3]
    · rw [hA]
      by_cases hrb : Ret c S.lin b e
      · exact t.belowHi (rr.mpr hrb)
      · rw [(t.keep e he.2 (Or.inl (by rwa [rr]))).below, belE3, brB hrb]
    · have nrb := hnot a b ha hA hra
      have aL := (popL a (Or.inr (List.mem_of_mem_head? ha))).1
      rw [(t.keep a aL.2 (Or.inl (by rwa [rr]))).below, (yes3 a ha hra).2, brE nrb]
    · rw [hA2, List.getLast?_concat, Option.some.injEq] at hA
      subst hA
      have : A' = A2 := by
        rw [hA2] at hA'
        exact (List.append_inj_left' hA' rfl).symm
      subst this
      exact t.belowLo (rr.mpr hrb) u hu'
    · have : A' = [] ∧ b = b' := by
        rw [hA2] at hA'
        cases A' with
        | nil => simp at hA'; exact ⟨rfl, hA'.symm⟩
        | cons y A' => simp at hA'
      obtain ⟨z1, rfl⟩ := this
      rw [t.belowNo (rr.mpr hrb) (by rw [z1]; rfl), (keep4 b bL'.2 bne (fun z => hnb b z.1 rfl)).below]

end

end Rene.Sweep
