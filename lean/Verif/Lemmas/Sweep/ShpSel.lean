import Verif.Lemmas.Sweep.ShpFinal
import Verif.Lemmas.Sweep.MixRun
import Verif.Lemmas.Face.Around

/-! # The level of a point: what the pieces below it say -/

namespace Rene.Sweep
open Rene.Face Finset

/-- The truth value of an operation on regions. -/
def opv (op : ShpOp) (a b : Bool) : Bool :=
  match op with
  | .difference => a && !b
  | .intersection => a && b
  | .union => a || b
  | .symmetricDifference => a ^^ b

/-- The parity of the segments of an operand in a set. -/
def par (c : Ctx) (T : Bool) (D : Finset ℕ) : Bool := bit (∑ i ∈ D, z (opB c i == T))

open Classical in
/-- The segments below a segment immediately to the right of `t`. -/
noncomputable def low (c : Ctx) (t : ℚ) (i : ℕ) : Finset ℕ := (range c.N).filter fun j => Spans c j t ∧ AboveR c j i t

theorem mem_low {c : Ctx} {t : ℚ} {i j : ℕ} : j ∈ low c t i ↔ j < c.N ∧ Spans c j t ∧ AboveR c j i t := by
  unfold low
  simp

/-- A set of segments present immediately to the right of `t`, closed downwards. -/
structure Lower (c : Ctx) (t : ℚ) (D : Finset ℕ) : Prop where
  lt : ∀ i ∈ D, i < c.N
  spans : ∀ i ∈ D, Spans c i t
  low : ∀ i ∈ D, ∀ j < c.N, Spans c j t → ¬ AboveR c i j t → j ∈ D

/-- How segments are selected at `t`. -/
structure Rule (c : Ctx) (op : ShpOp) (t : ℚ) (s : ℕ → Bool) : Prop where
  one : ∀ i < c.N, Spans c i t → (∀ j < c.N, Spans c j t → c.Coll i j → j = i) →
    s i = (opv op (par c true (low c t i)) (par c false (low c t i)) ^^
      opv op (par c true (low c t i) ^^ opB c i) (par c false (low c t i) ^^ !opB c i))
  two : ∀ i < c.N, ∀ j < c.N, opB c i = true → opB c j = false → Spans c i t → Spans c j t → c.Coll i j →
    (s i ^^ s j) = (opv op (par c true (low c t i)) (par c false (low c t i)) ^^
      opv op (!par c true (low c t i)) (!par c false (low c t i)))

theorem coll_of_key {c : Ctx} {t : ℚ} {i j : ℕ} (h1 : ¬ AboveR c i j t) (h2 : ¬ AboveR c j i t) : c.Coll i j := by
  unfold AboveR at h1 h2
  have e : c.f i t = c.f j t := by
    rcases lt_trichotomy (c.f i t) (c.f j t) with k | k | k
    · exact absurd (Or.inl k) h1
    · exact k
    · exact absurd (Or.inl k) h2
  have k : c.K i = c.K j := by
    rcases lt_trichotomy (c.K i) (c.K j) with k | k | k
    · exact absurd (Or.inr ⟨e, k⟩) h1
    · exact k
    · exact absurd (Or.inr ⟨e.symm, k⟩) h2
  refine ⟨k, ?_⟩
  have : c.K i * t + c.C i = c.K j * t + c.C j := e
  rw [k] at this
  linarith

theorem AboveR.trans' {c : Ctx} {t : ℚ} {i j k : ℕ} (h1 : AboveR c i j t) (h2 : AboveR c j k t) : AboveR c i k t := by
  unfold AboveR at *
  rcases h1 with a | ⟨a, b⟩ <;> rcases h2 with a' | ⟨a', b'⟩
  · left; linarith
  · left; linarith
  · left; linarith
  · right; exact ⟨by linarith, by linarith⟩

theorem AboveR.irrefl {c : Ctx} {t : ℚ} {i : ℕ} : ¬ AboveR c i i t := by
  unfold AboveR
  simp

theorem AboveR.coll_left {c : Ctx} {t : ℚ} {i j k : ℕ} (h : c.Coll i j) : AboveR c i k t ↔ AboveR c j k t := by
  unfold AboveR
  rw [h.f_eq t, h.1]

theorem AboveR.coll_right {c : Ctx} {t : ℚ} {i j k : ℕ} (h : c.Coll i j) : AboveR c k i t ↔ AboveR c k j t := by
  unfold AboveR
  rw [h.f_eq t, h.1]

theorem low_coll {c : Ctx} {t : ℚ} {i j : ℕ} (h : c.Coll i j) : low c t i = low c t j := by
  ext k
  rw [mem_low, mem_low, AboveR.coll_right h]

theorem low_lower (c : Ctx) (t : ℚ) (i : ℕ) : Lower c t (low c t i) where
  lt := fun j hj => (mem_low.mp hj).1
  spans := fun j hj => (mem_low.mp hj).2.1
  low := by
    intro j hj k hk hs hn
    refine mem_low.mpr ⟨hk, hs, ?_⟩
    have h := (mem_low.mp hj).2.2
    by_cases q : AboveR c k j t
    · exact q.trans' h
    · exact (AboveR.coll_left (coll_of_key hn q)).mp h

theorem exists_top {c : Ctx} {t : ℚ} {D : Finset ℕ} (h : D.Nonempty) : ∃ i ∈ D, ∀ j ∈ D, ¬ AboveR c i j t := by
  obtain ⟨i, hi, hm⟩ := exists_max_image D (fun i => toLex (c.f i t, c.K i)) h
  refine ⟨i, hi, fun j hj q => ?_⟩
  have := hm j hj
  rw [Prod.Lex.toLex_le_toLex] at this
  unfold AboveR at q
  simp only at this
  rcases q with q | ⟨q1, q2⟩ <;> rcases this with k | ⟨k1, k2⟩ <;> linarith

theorem par_insert {c : Ctx} {T : Bool} {D : Finset ℕ} {i : ℕ} (h : i ∉ D) :
    par c T (insert i D) = ((opB c i == T) ^^ par c T D) := by
  unfold par
  rw [sum_insert h, bit_add, bit_z]

/-- The level. -/
theorem Rule.level {c : Ctx} {op : ShpOp} {t : ℚ} {s : ℕ → Bool} (g : c.Good) (h : Rule c op t s) :
    ∀ (n : ℕ) (D : Finset ℕ), D.card = n → Lower c t D →
      bit (∑ i ∈ D, z (s i)) = opv op (par c true D) (par c false D) := by
  intro n
  induction n using Nat.strong_induction_on with
  | _ n ih =>
  intro D hn hD
  rcases D.eq_empty_or_nonempty with rfl | hne
  · show opv op false false |> fun a => false = a
    cases op <;> rfl
  obtain ⟨i, hi, hm⟩ := exists_top (c := c) (t := t) hne
  have hiN := hD.lt i hi
  have hiS := hD.spans i hi
  have hnot : i ∉ low c t i := fun q => (mem_low.mp q).2.2.irrefl
  have sub : low c t i ⊆ D := by
    intro k hk
    obtain ⟨a, b, d⟩ := mem_low.mp hk
    exact hD.low i hi k a b fun q => (q.trans' d).irrefl
  have hlt : (low c t i).card < n := by
    rw [← hn]
    exact card_lt_card ⟨sub, fun q => hnot (q hi)⟩
  have e := ih _ hlt (low c t i) rfl (low_lower c t i)
  by_cases tw : ∃ j < c.N, Spans c j t ∧ c.Coll i j ∧ j ≠ i
  · obtain ⟨j, hj, js, jc, jn⟩ := tw
    have hop : ∀ a < c.N, ∀ b < c.N, Spans c a t → Spans c b t → c.Coll a b → opB c a = opB c b → a = b := by
      intro a ha b hb sa sb cl so
      by_contra q
      have := g.noOv a ha b hb q (decide_eq_decide.mp so) cl
      rcases this with k | k
      · have := sa.2; have := sb.1; linarith
      · have := sb.2; have := sa.1; linarith
    have ho : opB c j ≠ opB c i := fun q => jn (hop j hj i hiN js hiS jc.symm q)
    have jnot : j ∉ low c t i := fun q => ((AboveR.coll_left jc).mpr (mem_low.mp q).2.2).irrefl
    have hDe : D = insert i (insert j (low c t i)) := by
      ext k
      rw [mem_insert, mem_insert]
      constructor
      · intro hk
        by_cases q : AboveR c k i t
        · exact Or.inr (Or.inr (mem_low.mpr ⟨hD.lt k hk, hD.spans k hk, q⟩))
        · have cl := coll_of_key q (hm k hk)
          by_cases w : opB c k = opB c i
          · exact Or.inl (hop k (hD.lt k hk) i hiN (hD.spans k hk) hiS cl w)
          · refine Or.inr (Or.inl (hop k (hD.lt k hk) j hj (hD.spans k hk) js (cl.trans jc) ?_))
            revert w ho
            cases opB c k <;> cases opB c i <;> cases opB c j <;> simp
      · rintro (rfl | rfl | q)
        · exact hi
        · exact hD.low i hi k hj js fun q => ((AboveR.coll_left jc).mp q).irrefl
        · exact sub q
    have inot : i ∉ insert j (low c t i) := by
      rw [mem_insert]
      rintro (q | q)
      · exact jn q.symm
      · exact hnot q
    rw [hDe, par_insert inot, par_insert jnot, par_insert inot, par_insert jnot, sum_insert inot, sum_insert jnot,
      bit_add, bit_add, bit_z, bit_z, e]
    rcases hb : opB c i with _ | _
    · have hb' : opB c j = true := by rw [hb] at ho; simpa using ho
      have k := h.two j hj i hiN hb' hb js hiS jc.symm
      rw [low_coll jc.symm] at k
      rw [hb']
      revert k
      generalize opv op (par c true (low c t i)) (par c false (low c t i)) = a
      generalize par c true (low c t i) = x
      generalize par c false (low c t i) = y
      cases s i <;> cases s j <;> cases a <;> cases x <;> cases y <;> simp
    · have hb' : opB c j = false := by rw [hb] at ho; simpa using ho
      have k := h.two i hiN j hj hb hb' hiS js jc
      rw [hb']
      revert k
      generalize opv op (par c true (low c t i)) (par c false (low c t i)) = a
      generalize par c true (low c t i) = x
      generalize par c false (low c t i) = y
      cases s i <;> cases s j <;> cases a <;> cases x <;> cases y <;> simp
  · have hal : ∀ j < c.N, Spans c j t → c.Coll i j → j = i := by
      intro j hj js jc
      by_contra q
      exact tw ⟨j, hj, js, jc, q⟩
    have hDe : D = insert i (low c t i) := by
      ext k
      rw [mem_insert]
      constructor
      · intro hk
        by_cases q : AboveR c k i t
        · exact Or.inr (mem_low.mpr ⟨hD.lt k hk, hD.spans k hk, q⟩)
        · exact Or.inl (hal k (hD.lt k hk) (hD.spans k hk) (coll_of_key q (hm k hk)).symm)
      · rintro (rfl | q)
        · exact hi
        · exact sub q
    have k := h.one i hiN hiS hal
    rw [hDe, par_insert hnot, par_insert hnot, sum_insert hnot, bit_add, bit_z, e, k]
    generalize opv op (par c true (low c t i)) (par c false (low c t i)) = a
    generalize par c true (low c t i) = x
    generalize par c false (low c t i) = y
    cases opB c i <;> cases a <;> cases x <;> cases y <;> simp

end Rene.Sweep
