import Mathlib.Data.Fintype.Basic
import Mathlib.Data.Fintype.BigOperators
import Mathlib.Data.ZMod.Basic
import Mathlib.Logic.Function.Iterate
import Verif.Model.Basic
import Mathlib.Tactic.Ring

/-! Plane graphs described by their half-edges ("darts"): the edges of the results of the operations on polygons.

Every even set of edges separates the plane in two parts; `side L d` tells the part to the left of the dart `d`.
All what is needed of planarity is that `side` exists and is related to the order of the darts at the vertices. -/

namespace Rene.Face

/-- A bit as a number. -/
def z (b : Bool) : ZMod 2 := if b then 1 else 0

@[simp] theorem z_false : z false = 0 := rfl
@[simp] theorem z_true : z true = 1 := rfl

theorem z_xor (a b : Bool) : z (a ^^ b) = z a + z b := by cases a <;> cases b <;> decide

theorem z_inj {a b : Bool} (h : z a = z b) : a = b := by
  revert h
  cases a <;> cases b <;> decide

theorem two_zero (a : ZMod 2) : a + a = 0 := by revert a; decide

/-- Half-edges: `opp` is the other half, `nx` the next one clockwise around the start `v`, `lf` tells those directed
to the right, `rank` is the order of events. -/
structure Darts (δ : Type) where
  opp : δ → δ
  nx : δ → δ
  v : δ → ℚ
  lf : δ → Bool
  rank : δ → ℕ

variable {δ : Type} [Fintype δ] [DecidableEq δ]

/-- An even set of edges. -/
structure Darts.Ev (D : Darts δ) (L : δ → Bool) : Prop where
  opp : ∀ d, L (D.opp d) = L d
  even : ∀ ρ : ℚ → Bool, ∑ d, z (L d && ρ (D.v d)) = 0

/-- A plane graph. -/
structure Darts.Good (D : Darts δ) (side : (δ → Bool) → δ → Bool) : Prop where
  opp_opp : ∀ d, D.opp (D.opp d) = d
  ne : ∀ d, D.v (D.opp d) ≠ D.v d
  nx_v : ∀ d, D.v (D.nx d) = D.v d
  nx_trans : ∀ d d', D.v d = D.v d' → ∃ m, D.nx^[m] d = d'
  simple : ∀ d d', D.v d = D.v d' → D.v (D.opp d) = D.v (D.opp d') → d = d'
  side_opp : ∀ L, D.Ev L → ∀ d, side L (D.opp d) = (side L d ^^ L d)
  side_nx : ∀ L, D.Ev L → ∀ d, side L (D.nx d) = side L (D.opp d)
  side_xor : ∀ L L', D.Ev L → D.Ev L' → ∀ d, side (fun x => L x ^^ L' x) d = (side L d ^^ side L' d)
  lf_opp : ∀ d, D.lf (D.opp d) = !D.lf d
  down : ∀ d, D.lf d = true → (∀ L, D.Ev L → side L (D.opp d) = false) ∨
    ∃ b, D.lf b = true ∧ D.rank b < D.rank d ∧ ∀ L, D.Ev L → side L (D.opp d) = side L b

variable {D : Darts δ} {side : (δ → Bool) → δ → Bool}

theorem Darts.Ev.xor {L L' : δ → Bool} (h : D.Ev L) (h' : D.Ev L') : D.Ev (fun x => L x ^^ L' x) := by
  refine ⟨fun d => by rw [h.opp, h'.opp], fun ρ => ?_⟩
  have : ∀ d, z ((L d ^^ L' d) && ρ (D.v d)) = z (L d && ρ (D.v d)) + z (L' d && ρ (D.v d)) := by
    intro d
    rw [← z_xor]
    congr 1
    cases L d <;> cases L' d <;> cases ρ (D.v d) <;> rfl
  rw [Finset.sum_congr rfl fun d _ => this d, Finset.sum_add_distrib, h.even, h'.even, add_zero]

/-- What remains of an even set. -/
theorem Darts.Ev.diff {L C : δ → Bool} (h : D.Ev L) (h' : D.Ev C) (sub : ∀ d, C d = true → L d = true) :
    D.Ev (fun x => L x && !C x) := by
  have : (fun x => L x && !C x) = fun x => L x ^^ C x := by
    funext x
    have := sub x
    revert this
    cases L x <;> cases C x <;> simp
  rw [this]
  exact h.xor h'

theorem Darts.Good.side_diff (g : D.Good side) {L C : δ → Bool} (h : D.Ev L) (h' : D.Ev C)
    (sub : ∀ d, C d = true → L d = true) (d : δ) : side (fun x => L x && !C x) d = (side L d ^^ side C d) := by
  have : (fun x => L x && !C x) = fun x => L x ^^ C x := by
    funext x
    have := sub x
    revert this
    cases L x <;> cases C x <;> simp
  rw [this]
  exact g.side_xor L C h h' d

/-! ### The next dart of a set -/

theorem Darts.Good.period (g : D.Good side) (d : δ) : ∃ m, D.nx^[m + 1] d = d := by
  obtain ⟨m, hm⟩ := g.nx_trans (D.nx d) d (g.nx_v d)
  exact ⟨m, by rw [Function.iterate_succ_apply]; exact hm⟩

theorem Darts.Good.nx_inj (g : D.Good side) : Function.Injective D.nx := by
  refine Finite.injective_iff_surjective.mpr fun d => ?_
  obtain ⟨m, hm⟩ := g.period d
  exact ⟨D.nx^[m] d, by rw [Function.iterate_succ_apply'] at hm; exact hm⟩

theorem Darts.Good.iter_v (g : D.Good side) (d : δ) (m : ℕ) : D.v (D.nx^[m] d) = D.v d := by
  induction m with
  | zero => rfl
  | succ m ih => rw [Function.iterate_succ_apply', g.nx_v, ih]

open Classical in
/-- The first dart of `U` after `d`. -/
noncomputable def Darts.next (D : Darts δ) (U : δ → Bool) (d : δ) : δ :=
  if h : ∃ m, U (D.nx^[m + 1] d) = true then D.nx^[Nat.find h + 1] d else d

theorem Darts.next_eq {U : δ → Bool} {d : δ} {m : ℕ} (hm : U (D.nx^[m + 1] d) = true)
    (hmin : ∀ j < m, U (D.nx^[j + 1] d) = false) : D.next U d = D.nx^[m + 1] d := by
  classical
  have h : ∃ m, U (D.nx^[m + 1] d) = true := ⟨m, hm⟩
  unfold Darts.next
  rw [dif_pos h]
  have : Nat.find h = m := by
    rw [Nat.find_eq_iff]
    exact ⟨hm, fun j hj => by rw [hmin j hj]; simp⟩
  rw [this]

theorem Darts.Good.next_spec (g : D.Good side) {U : δ → Bool} {d : δ} (hd : U d = true) :
    ∃ m, D.next U d = D.nx^[m + 1] d ∧ U (D.nx^[m + 1] d) = true ∧ ∀ j < m, U (D.nx^[j + 1] d) = false := by
  classical
  have h : ∃ m, U (D.nx^[m + 1] d) = true := by
    obtain ⟨m, hm⟩ := g.period d
    exact ⟨m, by rw [hm]; exact hd⟩
  refine ⟨Nat.find h, ?_, Nat.find_spec h, fun j hj => ?_⟩
  · unfold Darts.next; rw [dif_pos h]
  · have := Nat.find_min h hj
    simpa using this

theorem Darts.Good.next_mem (g : D.Good side) {U : δ → Bool} {d : δ} (hd : U d = true) : U (D.next U d) = true := by
  obtain ⟨m, h1, h2, _⟩ := g.next_spec hd
  rw [h1]; exact h2

theorem Darts.Good.next_v (g : D.Good side) {U : δ → Bool} {d : δ} (hd : U d = true) :
    D.v (D.next U d) = D.v d := by
  obtain ⟨m, h1, _, _⟩ := g.next_spec hd
  rw [h1, g.iter_v]

theorem Darts.Good.next_inj (g : D.Good side) {U : δ → Bool} {a b : δ} (ha : U a = true) (hb : U b = true)
    (h : D.next U a = D.next U b) : a = b := by
  have key : ∀ a b : δ, U a = true → U b = true → ∀ m m', m ≤ m' → D.nx^[m + 1] a = D.nx^[m' + 1] b →
      (∀ j < m', U (D.nx^[j + 1] b) = false) → a = b := by
    intro a b ha hb m m' hle e hmin
    obtain ⟨k, rfl⟩ := Nat.exists_eq_add_of_le hle
    have : m + k + 1 = (m + 1) + k := by omega
    rw [this, Function.iterate_add_apply D.nx (m + 1) k b] at e
    have := (g.nx_inj.iterate (m + 1)) e
    cases k with
    | zero => exact this
    | succ k =>
      have := hmin k (by omega)
      rw [‹a = _›] at ha
      rw [ha] at this
      exact absurd this (by simp)
  obtain ⟨m, h1, h2, h3⟩ := g.next_spec ha
  obtain ⟨m', h1', h2', h3'⟩ := g.next_spec hb
  rw [h1, h1'] at h
  rcases le_total m m' with k | k
  · exact key a b ha hb m m' k h h3'
  · exact (key b a hb ha m' m k h.symm h3).symm

/-- The sides of darts which follow one another in a set containing `L`. -/
theorem Darts.Good.side_next (g : D.Good side) {U L : δ → Bool} (hL : D.Ev L) (sub : ∀ d, L d = true → U d = true)
    {d : δ} (hd : U d = true) : side L (D.next U d) = side L (D.opp d) := by
  obtain ⟨m, h1, h2, h3⟩ := g.next_spec hd
  rw [h1]
  have : ∀ j ≤ m, side L (D.nx^[j + 1] d) = side L (D.opp d) := by
    intro j
    induction j with
    | zero => intro _; exact g.side_nx L hL d
    | succ j ih =>
      intro hj
      rw [Function.iterate_succ_apply', g.side_nx L hL, g.side_opp L hL, ih (by omega)]
      have : L (D.nx^[j + 1] d) = false := by
        have := h3 j (by omega)
        by_contra k
        rw [sub _ (by simpa using k)] at this
        exact absurd this (by simp)
      rw [this, Bool.xor_false]
  exact this m le_rfl

/-- If no dart of `U'` is skipped, then the next one is the same. -/
theorem Darts.Good.next_sub (g : D.Good side) {U U' : δ → Bool} (sub : ∀ d, U' d = true → U d = true) {d : δ}
    (hd : U d = true) (h : U' (D.next U d) = true) : D.next U' d = D.next U d := by
  obtain ⟨m, h1, h2, h3⟩ := g.next_spec hd
  rw [h1] at h ⊢
  refine Darts.next_eq h fun j hj => ?_
  by_contra k
  have := h3 j hj
  rw [sub _ (by simpa using k)] at this
  exact absurd this (by simp)

/-! ### Lowest darts -/

/-- The right side of a dart directed to the right, when nothing of `L` comes before it. -/
theorem Darts.Good.start (g : D.Good side) {L : δ → Bool} (hL : D.Ev L) {d : δ} (hd : D.lf d = true)
    (h : ∀ e, L e = true → D.rank d ≤ D.rank e) : side L (D.opp d) = false := by
  have key : ∀ m, ∀ d, D.rank d = m → D.lf d = true → (∀ e, L e = true → D.rank d ≤ D.rank e) →
      side L (D.opp d) = false := by
    intro m
    induction m using Nat.strong_induction_on with
    | _ m ih =>
      intro d hm hd h
      rcases g.down d hd with k | ⟨b, b1, b2, b3⟩
      · exact k L hL
      · rw [b3 L hL]
        have := ih (D.rank b) (by omega) b rfl b1 (fun e he => by have := h e he; omega)
        rw [g.side_opp L hL] at this
        have nb : L b = false := by
          by_contra k
          have := h b (by simpa using k)
          omega
        rw [nb, Bool.xor_false] at this
        exact this
  exact key _ d rfl hd h

end Rene.Face
