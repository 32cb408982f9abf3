import Verif.Lemmas.Sweep.MixStep

/-! One iteration of the mixed engine: left and right events. -/

namespace Rene.Sweep
open Rene Spec

variable {c : Ctx}

/-- The operand flags of the segments. -/
def inteOf (M : Mix) (i : ℕ) : Bool := M.interior.getD i false

section
variable {op : MixOp} {M : Mix} {p : Point} {e : ℕ} {A B : List ℕ} {S2 S3 : Lin}

theorem mix_left_eq (h : Inv c M.lin p) (hl : isLeft e = true)
    (lp : LeftParts c M.lin p e A B S2 S3) : M.process op e =
      (((({ M with lin := insertedAt M.lin e A B } : Mix).computeFields op e A.getLast?).checkAbove op e B.head?
        A.getLast?).checkBelow op e A.getLast?, true) := by
  have hqok : M.lin.queueOk = true := h.wf.queueOk h.qlt
  have hT1 : (insertedAt M.lin e A B).sweepLine = A ++ e :: B := rfl
  have hsp := lp.inv1.split (A := A) (B := B) (o := e) hT1
  unfold Mix.process
  rw [if_pos hl]
  unfold Mix.processLeft
  simp only [hqok, Bool.and_true]
  have hf' : Lin.find { M.lin with queue := M.lin.queue.erase e } e = none := lp.find
  have ha' : Lin.add { M.lin with queue := M.lin.queue.erase e } e = insertedAt M.lin e A B := by
    show Lin.mk M.lin.firstCount M.lin.endpoints M.lin.opposites M.lin.segmentsIds (M.lin.queue.erase e)
      (M.lin.add e).sweepLine M.lin.ok = _
    rw [lp.add]; rfl
  rw [hf']
  simp only
  rw [ha']
  have fa : (insertedAt M.lin e A B).above e = B.head? := hsp.above hT1
  have fb : (insertedAt M.lin e A B).below e = A.getLast? := hsp.below hT1
  rw [fa, fb]

/-- What an iteration for a left event does. -/
structure MixLeft (c : Ctx) (op : MixOp) (M M' : Mix) (e : ℕ) (A B : List ℕ) (S3 : Lin) : Prop where
  lin : M'.lin = S3
  interior : M'.interior = M.interior
  len : Len M'
  fr : ∀ D : ℕ → Prop, (∀ x, D x → x < cnt M.lin) → FrOn op M D → FrOn op M' (fun x => D x ∨ x = e)
  step : LeftStep c M.lin e A B (inteOf M) (flag M.other) (flag M.overlap) (flag M'.other) (flag M'.overlap)

theorem mix_left (g : c.Good) (h : Inv c M.lin p) (l : Least c M.lin e) (hp : lx c M.lin e = c.X p)
    (hl : isLeft e = true) (lp : LeftParts c M.lin p e A B S2 S3) (hlen : Len M)
    (hfresh : flag M.other e = false) :
    (M.process op e).2 = true ∧ MixLeft c op M (M.process op e).1 e A B S3 := by
  obtain ⟨he, hr, heT, hop⟩ := h.leftBasic l hp hl
  rw [mix_left_eq h hl lp]
  refine ⟨rfl, ?_⟩
  simp only
  have popL : ∀ y, y ∈ A ∨ y ∈ B → IsL M.lin y ∧ y ≠ e := fun y hy => by
    have := lp.popA h hy
    exact ⟨this.1, by rintro rfl; exact this.2 l.mem⟩
  have hop' : ∀ y, y ∈ A ∨ y ∈ B → CollE c M.lin y e → opB c (M.lin.sid y) ≠ opB c (M.lin.sid e) := by
    intro y hy hc hoe
    refine hop y ?_ hc ?_
    · rw [lp.sweep]; simpa using hy
    · unfold SameOp; unfold opB at hoe; rwa [decide_eq_decide] at hoe
  -- the state after the insertion
  generalize hM1 : ({ M with lin := insertedAt M.lin e A B } : Mix) = M1
  have l1 : M1.lin = insertedAt M.lin e A B := by rw [← hM1]
  have i1 : Inv0 c M1.lin p := by rw [l1]; exact lp.inv1
  have len1 : Len M1 := by rw [← hM1]; exact ⟨hlen.1, hlen.2, hlen.3⟩
  have in1 : M1.interior = M.interior := by rw [← hM1]
  have o1 : M1.other = M.other := by rw [← hM1]
  have v1 : M1.overlap = M.overlap := by rw [← hM1]
  have he1 : IsL M1.lin e := by rw [l1]; exact he
  have fr1 : ∀ D, FrOn op M D → FrOn op M1 D := by rw [← hM1]; exact fun D hD => hD
  have cnt1 : cnt M1.lin = cnt M.lin := by rw [l1]; rfl
  have sid1 : ∀ x, M1.lin.sid x = M.lin.sid x := by rw [l1]; exact fun x => rfl
  have ret1 : ∀ x y, Ret c M1.lin x y ↔ Ret c M.lin x y := by rw [l1]; exact fun x y => Iff.rfl
  -- after the first computation
  obtain ⟨m1, m2, m3, m4, m5, m6⟩ := computeFields_sim op M1 len1 he1.1 A.getLast?
  have hE2 : flag (M1.computeFields op e A.getLast?).other e =
      fromBelow c M.lin (inteOf M) (flag M.other) e A.getLast? := by
    rw [compute_value (c := c) i1.wf.fc len1 he1.1 A.getLast? (fun _ => by rw [o1]; exact hfresh), o1, in1]
    cases A.getLast? with
    | none => rfl
    | some b => unfold fromBelow inteOf; simp only; rw [sid1, sid1]
  have hX2 : ∀ x, x % 2 = 0 → x ≠ e → flag (M1.computeFields op e A.getLast?).other x = flag M.other x := by
    intro x hx hxe
    rw [m5, if_neg (half_ne hx he.2 hxe), o1]
  have fr2 := fun D (hD : FrOn op M D) => (fr1 D hD).compute len1 he1.1 he.2 A.getLast?
  generalize hM2 : M1.computeFields op e A.getLast? = M2 at *
  have l2 : M2.lin = insertedAt M.lin e A B := m1.trans l1
  have i2 : Inv0 c M2.lin p := by rw [l2]; exact lp.inv1
  have T2 : M2.lin.sweepLine = A ++ e :: B := by rw [l2]; rfl
  have sid2 : ∀ x, M2.lin.sid x = M.lin.sid x := by rw [l2]; exact fun x => rfl
  have ret2 : ∀ x y, Ret c M2.lin x y ↔ Ret c M.lin x y := by rw [l2]; exact fun x y => Iff.rfl
  have e2 : e ∈ M2.lin.sweepLine := by rw [T2]; simp
  have cnt2 : cnt M2.lin = cnt M.lin := by rw [l2]; rfl
  -- after the first check
  have key3 : ∃ M3, M3 = M2.checkAbove op e B.head? A.getLast? ∧ M3.lin = S2 ∧ M3.interior = M.interior ∧ Len M3 ∧
      (∀ D : ℕ → Prop, (∀ x, D x → x < cnt M.lin) → FrOn op M2 D → FrOn op M3 D) ∧
      (∀ x, x % 2 = 0 → (flag M3.overlap x = true ↔ flag M.overlap x = true ∨
        (∃ a, B.head? = some a ∧ Ret c M.lin e a ∧ (x = e ∨ x = a)))) ∧
      flag M3.other e = fromBelow c M.lin (inteOf M) (flag M.other) e A.getLast? ∧
      (∀ a, B.head? = some a → Ret c M.lin e a →
        flag M3.other a = fromBelow c M.lin (inteOf M) (flag M.other) a (some e)) ∧
      (∀ x, x % 2 = 0 → x ≠ e → ¬ (B.head? = some x ∧ Ret c M.lin e x) → flag M3.other x = flag M.other x) := by
    refine ⟨_, rfl, ?_⟩
    have s2 := lp.s2
    cases hB : B.head? with
    | none =>
      rw [hB] at s2
      refine ⟨by rw [s2]; exact l2, m2.trans in1, m4, fun D _ hD => hD, fun x _ => ?_, hE2, by simp, ?_⟩
      · show flag M2.overlap x = true ↔ _
        rw [m3, v1]; simp
      · intro x hx hxe _
        exact hX2 x hx hxe
    | some a =>
      rw [hB] at s2
      have ma : a ∈ B := List.mem_of_mem_head? hB
      obtain ⟨aL, ane⟩ := popL a (Or.inr ma)
      have a2 : a ∈ M2.lin.sweepLine := by rw [T2]; simp [ma]
      have t := checkAbove_tested g (op := op) i2 m4 e2 a2 ane.symm A.getLast?
      refine ⟨by rw [t.lin, s2, l2], by rw [t.interior, m2, in1], t.len, fun D hD => t.fr D (by rwa [cnt2]),
        fun x hx => ?_, ?_, ?_, ?_⟩
      · rw [t.ov x hx, m3, v1, ret2]
        simp
      · by_cases hra : Ret c M.lin e a
        · have := (checkAbove_value g (op := op) i2 m4 e2 a2 ane.symm A.getLast? (fun u hu => ?_) (fun hn => ?_)
            ((ret2 _ _).mpr hra) (by rw [sid2, sid2]; exact hop' a (Or.inr ma) hra.1.symm)).1
          · rw [this]
            cases hA : A.getLast? with
            | none => rfl
            | some b =>
              have hb := popL b (Or.inl (List.mem_of_getLast? hA))
              unfold fromBelow inteOf
              simp only
              rw [sid2, sid2, hX2 b hb.1.2 hb.2, m2, in1]
          · have hb := popL u (Or.inl (List.mem_of_getLast? hu))
            exact ⟨by rw [cnt2]; exact hb.1.1, hb.1.2, hb.2⟩
          · rw [hE2, hn]; rfl
        · rw [t.oth e he.2 (Or.inl (by rwa [ret2]))]; exact hE2
      · intro a' ha' hra
        cases ha'
        have := (checkAbove_value g (op := op) i2 m4 e2 a2 ane.symm A.getLast? (fun u hu => ?_) (fun hn => ?_)
            ((ret2 _ _).mpr hra) (by rw [sid2, sid2]; exact hop' a (Or.inr ma) hra.1.symm)).2
        · rw [this]
          have no := hop' a (Or.inr ma) hra.1.symm
          unfold fromBelow inteOf
          simp only
          rw [sid2, sid2, if_neg no, if_neg no, m2, in1]
        · have hb := popL u (Or.inl (List.mem_of_getLast? hu))
          exact ⟨by rw [cnt2]; exact hb.1.1, hb.1.2, hb.2⟩
        · rw [hE2, hn]; rfl
      · intro x hx hxe hxa
        by_cases hra : Ret c M.lin e a
        · have : x ≠ a := by rintro rfl; exact hxa ⟨rfl, hra⟩
          rw [t.oth x hx (Or.inr ⟨hxe, this⟩)]; exact hX2 x hx hxe
        · rw [t.oth x hx (Or.inl (by rwa [ret2]))]; exact hX2 x hx hxe
  obtain ⟨M3, hM3, l3, in3, len3, fr3, ov3, othE3, othA3, othX3⟩ := key3
  rw [← hM3]
  have i3 : Inv0 c M3.lin p := by rw [l3]; exact lp.inv2
  have T3 : M3.lin.sweepLine = A ++ e :: B := by rw [l3, lp.ext1.sweepLine]; rfl
  have sid3 : ∀ x < cnt M.lin, M3.lin.sid x = M.lin.sid x := by
    intro x hx; rw [l3]; exact lp.ext1.sid x hx
  have ret3 : ∀ x < cnt M.lin, ∀ y < cnt M.lin, (Ret c M3.lin x y ↔ Ret c M.lin x y) := by
    intro x hx y hy; rw [l3]; exact lp.ext1.ret hx hy
  have e3 : e ∈ M3.lin.sweepLine := by rw [T3]; simp
  have cnt3 : cnt M.lin ≤ cnt M3.lin := by rw [l3]; exact lp.ext1.cnt
  have fr4 := fun D (hD : ∀ x, D x → x < cnt M.lin) (f : FrOn op M D) => fr3 (fun x => D x ∨ x = e)
    (fun x hx => hx.elim (hD x) (fun z => z ▸ he.1)) (fr2 D f)
  have s3 := lp.s3
  cases hA : A.getLast? with
  | none =>
    rw [hA] at s3 othE3
    refine ⟨by rw [s3]; exact l3, in3, len3, fr4, ⟨?_, othA3, ?_, ?_, ?_⟩⟩
    · rw [hA]; exact othE3
    · rw [hA]; simp
    · intro x hx hxe hxa _; exact othX3 x hx hxe hxa
    · intro x hx
      show flag M3.overlap x = true ↔ _
      rw [ov3 x hx, hA]
      constructor
      · rintro (k | ⟨a, k1, k2, rfl | rfl⟩)
        · exact Or.inl k
        · exact Or.inr (Or.inl ⟨rfl, Or.inl ⟨a, k1, k2⟩⟩)
        · exact Or.inr (Or.inr (Or.inl ⟨k1, k2⟩))
      · rintro (k | ⟨rfl, ⟨a, k1, k2⟩ | ⟨b, k1, _⟩⟩ | ⟨k1, k2⟩ | ⟨k1, _⟩)
        · exact Or.inl k
        · exact Or.inr ⟨a, k1, k2, Or.inl rfl⟩
        · simp at k1
        · exact Or.inr ⟨x, k1, k2, Or.inr rfl⟩
        · simp at k1
  | some b =>
    rw [hA] at s3 othE3
    have mb : b ∈ A := List.mem_of_getLast? hA
    obtain ⟨bL, bne⟩ := popL b (Or.inl mb)
    have b3 : b ∈ M3.lin.sweepLine := by rw [T3]; simp [mb]
    have t := checkBelow_tested g (op := op) i3 len3 e3 b3 bne
    have rr := ret3 b bL.1 e he.1
    have nd := i3.tnd
    rw [T3, List.nodup_append] at nd
    have hnb : ∀ a, B.head? = some a → a ≠ b := by
      rintro a ha rfl
      exact nd.2.2 a mb a (by simp [List.mem_of_mem_head? ha]) rfl
    obtain ⟨A', hA'⟩ : ∃ A', A = A' ++ [b] := by
      rcases List.eq_nil_or_concat' A with rfl | ⟨A', b', rfl⟩
      · simp at hA
      · rw [List.getLast?_concat, Option.some.injEq] at hA
        subst hA; exact ⟨A', rfl⟩
    have val := fun (hrb : Ret c M.lin b e) => checkBelow_value g (op := op) i3 len3 e3 b3 bne (rr.mpr hrb)
      (by rw [sid3 e he.1, sid3 b bL.1]; exact (hop' b (Or.inl mb) hrb.1).symm) (A := A') (B := B)
      (by rw [T3, hA'])
    refine ⟨by rw [t.lin, s3, l3], by rw [t.interior, in3], t.len, fun D hD f => ?_, ⟨?_, ?_, ?_, ?_, ?_⟩⟩
    · refine t.fr _ (fun x hx => ?_) (fr4 D hD f)
      refine lt_of_lt_of_le ?_ cnt3
      exact hx.elim (hD x) (fun z => z ▸ he.1)
    · rw [hA]
      by_cases hrb : Ret c M.lin b e
      · rw [(val hrb).1]
        have no := (hop' b (Or.inl mb) hrb.1).symm
        unfold fromBelow inteOf
        simp only
        rw [sid3 e he.1, sid3 b bL.1, if_neg no, if_neg no, in3]
      · rw [t.oth e he.2 (Or.inl (by rwa [rr]))]; exact othE3
    · intro a ha hra
      have ane := (popL a (Or.inr (List.mem_of_mem_head? ha)))
      rw [t.oth a ane.1.2 (Or.inr ⟨hnb a ha, ane.2⟩)]
      exact othA3 a ha hra
    · intro b' hb' hrb
      rw [hA] at hb'
      cases hb'
      have v := (val hrb).2
      cases hA2 : A'.getLast? with
      | none =>
        rw [hA2] at v
        left
        rw [v]
        refine othX3 b bL.2 bne ?_
        rintro ⟨k1, _⟩
        exact hnb b k1 rfl
      | some bb =>
        rw [hA2] at v
        right
        obtain ⟨A'', hA''⟩ : ∃ A'', A' = A'' ++ [bb] := by
          rcases List.eq_nil_or_concat' A' with rfl | ⟨A'', b', rfl⟩
          · simp at hA2
          · rw [List.getLast?_concat, Option.some.injEq] at hA2
            subst hA2; exact ⟨A'', rfl⟩
        refine ⟨A'', bb, by rw [hA', hA''], ?_⟩
        have mbb : bb ∈ A := by rw [hA', hA'']; simp
        obtain ⟨bbL, bbe⟩ := popL bb (Or.inl mbb)
        rw [v]
        unfold fromBelow inteOf
        simp only
        rw [sid3 b bL.1, sid3 bb bbL.1, in3, othX3 bb bbL.2 bbe]
        rintro ⟨k1, _⟩
        exact nd.2.2 bb mbb bb (by simp [List.mem_of_mem_head? k1]) rfl
    · intro x hx hxe hxa hxb
      by_cases hrb : Ret c M.lin b e
      · have : x ≠ b := by rintro rfl; exact hxb ⟨hA, hrb⟩
        rw [t.oth x hx (Or.inr ⟨this, hxe⟩)]; exact othX3 x hx hxe hxa
      · rw [t.oth x hx (Or.inl (by rwa [rr]))]; exact othX3 x hx hxe hxa
    · intro x hx
      rw [t.ov x hx, ov3 x hx, hA, rr]
      constructor
      · rintro ((k | ⟨a, k1, k2, rfl | rfl⟩) | ⟨k1, rfl | rfl⟩)
        · exact Or.inl k
        · exact Or.inr (Or.inl ⟨rfl, Or.inl ⟨a, k1, k2⟩⟩)
        · exact Or.inr (Or.inr (Or.inl ⟨k1, k2⟩))
        · exact Or.inr (Or.inr (Or.inr ⟨rfl, k1⟩))
        · exact Or.inr (Or.inl ⟨rfl, Or.inr ⟨b, rfl, k1⟩⟩)
      · rintro (k | ⟨rfl, ⟨a, k1, k2⟩ | ⟨b', k1, k2⟩⟩ | ⟨k1, k2⟩ | ⟨k1, k2⟩)
        · exact Or.inl (Or.inl k)
        · exact Or.inl (Or.inr ⟨a, k1, k2, Or.inl rfl⟩)
        · cases k1; exact Or.inr ⟨k2, Or.inr rfl⟩
        · exact Or.inl (Or.inr ⟨x, k1, k2, Or.inr rfl⟩)
        · cases k1; exact Or.inr ⟨k2, Or.inl rfl⟩

/-- What an iteration for a right event does. -/
theorem mix_right (g : c.Good) (h : Inv c M.lin p) (l : Least c M.lin e) (hp : lx c M.lin e = c.X p)
    (hr : ¬ isLeft e = true) (hlen : Len M) :
    (M.process op e).2 = true ∧ (M.process op e).1.lin = M.lin.process e ∧
    (M.process op e).1.interior = M.interior ∧ Len (M.process op e).1 ∧
    (∀ x, flag (M.process op e).1.other x = flag M.other x) ∧
    (∀ x, flag (M.process op e).1.fromResult x = flag M.fromResult x) ∧
    (∀ x, x % 2 = 0 → flag M.overlap x = true → flag (M.process op e).1.overlap x = true) ∧
    (∀ x, x % 2 = 0 → flag (M.process op e).1.overlap x = true → flag M.overlap x = true ∨
      (Popped M.lin x ∧ ∃ y, Popped M.lin y ∧ y ≠ x ∧ Ret c M.lin x y)) := by
  have he := h.qlt e l.mem
  have ho := h.wf.toLeft he
  rw [toLeft_right hr] at ho
  have hoT := (h.right g l hp hr).2.2.1
  obtain ⟨A, B, hT⟩ := List.append_of_mem hoT
  have hqok : M.lin.queueOk = true := h.wf.queueOk h.qlt
  have hrm := h.removed g l hp hr hT M.lin.ok
  have hs := h.toInv0.split hT
  have s1 : Split (Lin.sweepLt { M.lin with queue := M.lin.queue.erase e }) (M.lin.opp e) A B := hs
  have s2 : (Lin.sweepLine { M.lin with queue := M.lin.queue.erase e }) = A ++ M.lin.opp e :: B := hT
  have f := s1.find s2
  have fa := s1.above s2
  have fb := s1.below s2
  have fr := s1.remove s2
  have hoe : Lin.opp { M.lin with queue := M.lin.queue.erase e } e = M.lin.opp e := rfl
  have hl : isLeft (Lin.opp { M.lin with queue := M.lin.queue.erase e } e) = true := isLeft_iff.mpr ho.2
  generalize hS1 : ({ M.lin with queue := M.lin.queue.erase e, sweepLine := A ++ B, ok := M.lin.ok } : Lin) = S1
    at hrm
  have fr : ({ M.lin with queue := M.lin.queue.erase e } : Lin).remove (M.lin.opp e) = S1 := fr.trans hS1
  have e1 : M.process op e = ((match A.getLast?, B.head? with
      | some b, some a => (({ M with lin := S1 } : Mix).detectIntersection b a).1
      | _, _ => { M with lin := S1 }), true) := by
    unfold Mix.process
    rw [if_neg hr]
    unfold Mix.processRight
    simp only [hqok, Bool.and_true]
    simp only [hl, Bool.and_true]
    rw [hoe, f]
    simp only
    rw [fa, fb, fr]
    generalize A.getLast? = u
    generalize B.head? = v
    cases u <;> cases v <;> rfl
  have e2 : M.lin.process e = (match A.getLast?, B.head? with
      | some b, some a => S1.detectIntersection b a
      | _, _ => S1) := by
    unfold Lin.process
    rw [if_neg hr]
    unfold Lin.processRight
    simp only [hqok, Bool.and_true]
    simp only [hl, Bool.and_true]
    rw [hoe, f]
    simp only
    rw [fa, fb, fr]
    generalize A.getLast? = u
    generalize B.head? = v
    cases u <;> cases v <;> rfl
  rw [e1, e2]
  refine ⟨rfl, ?_⟩
  simp only
  have hc1 : cnt S1 = cnt M.lin := by rw [← hS1]
  have len1 : Len ({ M with lin := S1 } : Mix) := by
    constructor
    · show M.other.length * 2 = cnt S1; rw [hc1]; exact hlen.1
    · show M.fromResult.length * 2 = cnt S1; rw [hc1]; exact hlen.2
    · show M.overlap.length * 2 = cnt S1; rw [hc1]; exact hlen.3
  have trivial_case : ({ M with lin := S1 } : Mix).lin = S1 ∧
      ({ M with lin := S1 } : Mix).interior = M.interior ∧ Len ({ M with lin := S1 } : Mix) ∧
      (∀ x, flag ({ M with lin := S1 } : Mix).other x = flag M.other x) ∧
      (∀ x, flag ({ M with lin := S1 } : Mix).fromResult x = flag M.fromResult x) ∧
      (∀ x, x % 2 = 0 → flag M.overlap x = true → flag ({ M with lin := S1 } : Mix).overlap x = true) ∧
      (∀ x, x % 2 = 0 → flag ({ M with lin := S1 } : Mix).overlap x = true → flag M.overlap x = true ∨
        (Popped M.lin x ∧ ∃ y, Popped M.lin y ∧ y ≠ x ∧ Ret c M.lin x y)) :=
    ⟨rfl, rfl, len1, fun _ => rfl, fun _ => rfl, fun _ _ z => z, fun _ _ z => Or.inl z⟩
  cases hA : A.getLast? with
  | none => exact trivial_case
  | some b =>
    cases hB : B.head? with
    | none => exact trivial_case
    | some a =>
      simp only
      have mb : b ∈ A := List.mem_of_getLast? hA
      have ma : a ∈ B := List.mem_of_mem_head? hB
      have hT1 : S1.sweepLine = A ++ B := by rw [← hS1]
      have bT : b ∈ M.lin.sweepLine := by rw [hT]; simp [mb]
      have aT : a ∈ M.lin.sweepLine := by rw [hT]; simp [ma]
      have b1 : b ∈ S1.sweepLine := by rw [hT1]; simp [mb]
      have a1 : a ∈ S1.sweepLine := by rw [hT1]; simp [ma]
      have bp : Popped M.lin b := ⟨h.isL bT, ((h.tmem b).mp bT).2.1⟩
      have ap : Popped M.lin a := ⟨h.isL aT, ((h.tmem a).mp aT).2.1⟩
      have hba : b ≠ a := by
        have nd := hrm.tnd
        rw [hT1, List.nodup_append] at nd
        exact nd.2.2 b mb a ma
      have bL := hrm.isL b1
      have aL := hrm.isL a1
      obtain ⟨k1, k2, k3, k4, k5, k6⟩ := detectIntersection_sim ({ M with lin := S1 } : Mix) len1 (b := b) (e := a)
        bL.1 aL.1
      have rr := ret_iff g (M := ({ M with lin := S1 } : Mix)) (b := b) (e := a) hrm.wf bL aL
      have rr' : Ret c S1 b a ↔ Ret c M.lin b a := by rw [← hS1]; exact Iff.rfl
      refine ⟨k1, k2, k3, k4, k5, fun x hx z => (k6 x).mpr (Or.inl z), fun x hx z => ?_⟩
      rcases (k6 x).mp z with z | ⟨z1, z2⟩
      · exact Or.inl z
      · right
        have hret := rr'.mp (rr.mp z1)
        rw [half_iff hx bL.2, half_iff hx aL.2] at z2
        rcases z2 with rfl | rfl
        · exact ⟨bp, a, ap, hba.symm, hret⟩
        · exact ⟨ap, b, bp, hba, hret.symm⟩

end

end Rene.Sweep
