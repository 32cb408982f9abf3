import Verif.Model.Repr
import Verif.Spec.Basic
import Mathlib.Data.Nat.Digits.Defs

/-! # C65: texts of geometries -/

namespace Rene
open Text

/-- What can follow a complete text inside of a longer one. -/
def Spec.Ended (t : List Char) : Prop := t = [] ∨ ∃ c r, t = c :: r ∧ (c = ',' ∨ c = ')' ∨ c = ']')

/-- Texts from which the value can be read back, also when more follows. -/
def Spec.Readable {α : Type} (f : α → List Char) : Prop :=
  ∀ a b s t, Spec.Ended s → Spec.Ended t → f a ++ s = f b ++ t → a = b ∧ s = t

namespace Text

theorem ended_comma (t : List Char) : Spec.Ended (", ".toList ++ t) := Or.inr ⟨',', ' ' :: t, rfl, Or.inl rfl⟩
theorem ended_paren (t : List Char) : Spec.Ended (")".toList ++ t) := Or.inr ⟨')', t, rfl, Or.inr (Or.inl rfl)⟩
theorem ended_bracket (t : List Char) : Spec.Ended ("])".toList ++ t) := Or.inr ⟨']', ')' :: t, rfl, Or.inr (Or.inr rfl)⟩
theorem ended_open (t : List Char) : Spec.Ended (", [".toList ++ t) := Or.inr ⟨',', ' ' :: '[' :: t, rfl, Or.inl rfl⟩

/-- Lists of texts up to the closing bracket. -/
theorem join_read {α : Type} {f : α → List Char} (hf : Spec.Readable f) (hb : ∀ a s t, f a ++ s ≠ "])".toList ++ t) :
    ∀ (l l' : List α) (s t : List Char), join (l.map f) ++ ("])".toList ++ s) = join (l'.map f) ++ ("])".toList ++ t) →
      l = l' ∧ s = t
  | [], [], s, t, h => by
    simp only [List.map_nil, join, List.nil_append] at h
    exact ⟨rfl, List.append_cancel_left h⟩
  | [], [b], s, t, h => absurd h.symm (hb _ _ _)
  | [], b :: c :: l', s, t, h => by
    simp only [List.map_cons, join, List.append_assoc] at h
    exact absurd h.symm (hb _ _ _)
  | [a], [], s, t, h => absurd h (hb _ _ _)
  | a :: c :: l, [], s, t, h => by
    simp only [List.map_cons, join, List.append_assoc] at h
    exact absurd h (hb _ _ _)
  | [a], [b], s, t, h => by
    obtain ⟨e, h2⟩ := hf a b _ _ (ended_bracket s) (ended_bracket t) h
    exact ⟨by rw [e], List.append_cancel_left h2⟩
  | [a], b :: c :: l', s, t, h => by
    simp only [List.map_cons, join, List.append_assoc] at h
    obtain ⟨_, h2⟩ := hf a b _ _ (ended_bracket s) (ended_comma _) h
    exact absurd (List.cons.inj h2).1 (by decide)
  | a :: c :: l, [b], s, t, h => by
    simp only [List.map_cons, join, List.append_assoc] at h
    obtain ⟨_, h2⟩ := hf a b _ _ (ended_comma _) (ended_bracket t) h
    exact absurd (List.cons.inj h2).1 (by decide)
  | a :: c :: l, b :: d :: l', s, t, h => by
    simp only [List.map_cons, join, List.append_assoc] at h
    obtain ⟨e, h2⟩ := hf a b (", ".toList ++ (join ((c :: l).map f) ++ ("])".toList ++ s)))
      (", ".toList ++ (join ((d :: l').map f) ++ ("])".toList ++ t))) (ended_comma _) (ended_comma _) h
    obtain ⟨e2, e3⟩ := join_read hf hb (c :: l) (d :: l') s t (List.append_cancel_left h2)
    exact ⟨by rw [e, e2], e3⟩

variable {scalar : ℚ → List Char} (hs : Spec.Readable scalar)
include hs

theorem point_read : Spec.Readable (point scalar) := by
  rintro ⟨a, b⟩ ⟨c, d⟩ s t _ _ h
  unfold point at h
  simp only [List.append_assoc] at h
  obtain ⟨e1, h1⟩ := hs _ _ _ _ (ended_comma _) (ended_comma _) (List.append_cancel_left h)
  obtain ⟨e2, h2⟩ := hs _ _ _ _ (ended_paren _) (ended_paren _) (List.append_cancel_left h1)
  subst e1; subst e2
  exact ⟨rfl, List.append_cancel_left h2⟩

theorem segment_read : Spec.Readable (segment scalar) := by
  rintro ⟨a, b⟩ ⟨c, d⟩ s t _ _ h
  unfold segment at h
  simp only [List.append_assoc] at h
  obtain ⟨e1, h1⟩ := point_read hs _ _ _ _ (ended_comma _) (ended_comma _) (List.append_cancel_left h)
  obtain ⟨e2, h2⟩ := point_read hs _ _ _ _ (ended_paren _) (ended_paren _) (List.append_cancel_left h1)
  subst e1; subst e2
  exact ⟨rfl, List.append_cancel_left h2⟩

theorem box_read : Spec.Readable (box scalar) := by
  rintro ⟨a1, a2, a3, a4⟩ ⟨b1, b2, b3, b4⟩ s t _ _ h
  unfold box at h
  simp only [List.append_assoc] at h
  obtain ⟨e1, h1⟩ := hs _ _ _ _ (ended_comma _) (ended_comma _) (List.append_cancel_left h)
  obtain ⟨e2, h2⟩ := hs _ _ _ _ (ended_comma _) (ended_comma _) (List.append_cancel_left h1)
  obtain ⟨e3, h3⟩ := hs _ _ _ _ (ended_comma _) (ended_comma _) (List.append_cancel_left h2)
  obtain ⟨e4, h4⟩ := hs _ _ _ _ (ended_paren _) (ended_paren _) (List.append_cancel_left h3)
  subst e1; subst e2; subst e3; subst e4
  exact ⟨rfl, List.append_cancel_left h4⟩

theorem contour_read : Spec.Readable (contour scalar) := by
  rintro ⟨l⟩ ⟨l'⟩ s t _ _ h
  unfold contour at h
  simp only [List.append_assoc] at h
  obtain ⟨e1, h1⟩ := join_read (point_read hs) (by intro a s t e; unfold point at e; simp at e) _ _ _ _ (List.append_cancel_left h)
  subst e1
  exact ⟨rfl, h1⟩

theorem multisegment_read : Spec.Readable (multisegment scalar) := by
  rintro ⟨l⟩ ⟨l'⟩ s t _ _ h
  unfold multisegment at h
  simp only [List.append_assoc] at h
  obtain ⟨e1, h1⟩ := join_read (segment_read hs) (by intro a s t e; unfold segment at e; simp at e) _ _ _ _ (List.append_cancel_left h)
  subst e1
  exact ⟨rfl, h1⟩

theorem polygon_read : Spec.Readable (polygon scalar) := by
  rintro ⟨b, l⟩ ⟨b', l'⟩ s t _ _ h
  unfold polygon at h
  simp only [List.append_assoc] at h
  obtain ⟨e1, h1⟩ := contour_read hs _ _ _ _ (ended_open _) (ended_open _) (List.append_cancel_left h)
  obtain ⟨e2, h2⟩ := join_read (contour_read hs) (by intro a s t e; unfold contour at e; simp at e) _ _ _ _ (List.append_cancel_left h1)
  subst e1; subst e2
  exact ⟨rfl, h2⟩

theorem multipolygon_read : Spec.Readable (multipolygon scalar) := by
  rintro ⟨l⟩ ⟨l'⟩ s t _ _ h
  unfold multipolygon at h
  simp only [List.append_assoc] at h
  obtain ⟨e1, h1⟩ := join_read (polygon_read hs) (by intro a s t e; unfold polygon at e; simp at e) _ _ _ _ (List.append_cancel_left h)
  subst e1
  exact ⟨rfl, h1⟩

end Text

/-! ### The printers of rational numbers -/

namespace Spec

/-- A natural number in decimal notation. -/
def natText (n : ℕ) : List Char := if n = 0 then ['0'] else ((Nat.digits 10 n).map Nat.digitChar).reverse

/-- An integer in decimal notation. -/
def intText (z : ℤ) : List Char := if z < 0 then '-' :: natText z.natAbs else natText z.natAbs

/-- `str` of a fraction: `3`, `-1/2`. -/
def fractionStr (q : ℚ) : List Char := intText q.num ++ if q.den = 1 then [] else '/' :: natText q.den

/-- `repr` of a fraction: `Fraction(-1, 2)`. -/
def fractionRepr (q : ℚ) : List Char :=
  "Fraction(".toList ++ (intText q.num ++ ", ".toList ++ (natText q.den ++ ")".toList))

end Spec

namespace Text
open Spec

theorem digitChar_inj {a b : ℕ} (ha : a < 10) (hb : b < 10) (h : Nat.digitChar a = Nat.digitChar b) : a = b := by
  have key : ∀ a < 10, ∀ b < 10, Nat.digitChar a = Nat.digitChar b → a = b := by decide
  exact key a ha b hb h

theorem digitChar_not {a : ℕ} (ha : a < 10) : Nat.digitChar a ≠ ',' ∧ Nat.digitChar a ≠ ')' ∧ Nat.digitChar a ≠ ']' ∧
    Nat.digitChar a ≠ '-' ∧ Nat.digitChar a ≠ '/' := by
  have key : ∀ a < 10, Nat.digitChar a ≠ ',' ∧ Nat.digitChar a ≠ ')' ∧ Nat.digitChar a ≠ ']' ∧
    Nat.digitChar a ≠ '-' ∧ Nat.digitChar a ≠ '/' := by decide
  exact key a ha

theorem mem_natText {n : ℕ} {c : Char} (h : c ∈ natText n) : ∃ a < 10, c = Nat.digitChar a := by
  unfold natText at h
  split_ifs at h
  · exact ⟨0, by norm_num, by rw [List.mem_singleton.mp h]; rfl⟩
  · obtain ⟨a, ha, rfl⟩ := List.mem_map.mp (List.mem_reverse.mp h)
    exact ⟨a, Nat.digits_lt_base (by norm_num) ha, rfl⟩

theorem natText_inj {m n : ℕ} (h : natText m = natText n) : m = n := by
  have key : ∀ k : ℕ, natText k = (((if k = 0 then [0] else Nat.digits 10 k).map Nat.digitChar).reverse) := by
    intro k; unfold natText; split_ifs <;> rfl
  rw [key, key, List.reverse_inj] at h
  have small : ∀ k : ℕ, ∀ a ∈ (if k = 0 then [0] else Nat.digits 10 k), a < 10 := by
    intro k a ha
    split_ifs at ha
    · simp at ha; omega
    · exact Nat.digits_lt_base (by norm_num) ha
  have inj : ∀ {l l' : List ℕ}, (∀ a ∈ l, a < 10) → (∀ a ∈ l', a < 10) → l.map Nat.digitChar = l'.map Nat.digitChar → l = l' := by
    intro l
    induction l with
    | nil => intro l' _ _ h; cases l' with
      | nil => rfl
      | cons b l' => simp at h
    | cons a l ih => intro l' h1 h2 h; cases l' with
      | nil => simp at h
      | cons b l' =>
        simp only [List.map_cons, List.cons.injEq] at h
        rw [digitChar_inj (h1 a (by simp)) (h2 b (by simp)) h.1,
          ih (fun x hx => h1 x (by simp [hx])) (fun x hx => h2 x (by simp [hx])) h.2]
  have e := inj (small m) (small n) h
  have val : ∀ k : ℕ, Nat.ofDigits 10 (if k = 0 then [0] else Nat.digits 10 k) = k := by
    intro k
    split_ifs with hk
    · simp [hk]
    · exact Nat.ofDigits_digits 10 k
  rw [← val m, ← val n, e]

theorem mem_intText {z : ℤ} {c : Char} (h : c ∈ intText z) : c = '-' ∨ ∃ a < 10, c = Nat.digitChar a := by
  unfold intText at h
  split_ifs at h
  · rcases List.mem_cons.mp h with w | w
    · exact Or.inl w
    · exact Or.inr (mem_natText w)
  · exact Or.inr (mem_natText h)

theorem natText_no_minus {n : ℕ} {l : List Char} : natText n ≠ '-' :: l := by
  intro h
  obtain ⟨a, ha, e⟩ := mem_natText (n := n) (c := '-') (by rw [h]; simp)
  exact (digitChar_not ha).2.2.2.1 e.symm

theorem intText_inj {y z : ℤ} (h : intText y = intText z) : y = z := by
  unfold intText at h
  split_ifs at h with a b b
  · have := natText_inj (List.cons.inj h).2
    omega
  · exact absurd h.symm natText_no_minus
  · exact absurd h natText_no_minus
  · have := natText_inj h
    omega

/-- Texts without a character are told apart from what follows it. -/
theorem split_at {P : Char → Prop} : ∀ {u v s t : List Char}, (∀ c ∈ u, ¬ P c) → (∀ c ∈ v, ¬ P c) →
    (s = [] ∨ ∃ c r, s = c :: r ∧ P c) → (t = [] ∨ ∃ c r, t = c :: r ∧ P c) → u ++ s = v ++ t → u = v ∧ s = t
  | [], [], s, t, _, _, _, _, h => ⟨rfl, h⟩
  | [], c :: v, s, t, _, hv, hs, _, h => by
    exfalso
    rcases hs with rfl | ⟨d, r, rfl, hd⟩
    · simp at h
    · simp only [List.nil_append, List.cons_append, List.cons.injEq] at h
      exact hv c (by simp) (h.1 ▸ hd)
  | c :: u, [], s, t, hu, _, _, ht, h => by
    exfalso
    rcases ht with rfl | ⟨d, r, rfl, hd⟩
    · simp at h
    · simp only [List.nil_append, List.cons_append, List.cons.injEq] at h
      exact hu c (by simp) (h.1 ▸ hd)
  | c :: u, d :: v, s, t, hu, hv, hs, ht, h => by
    simp only [List.cons_append, List.cons.injEq] at h
    obtain ⟨e1, e2⟩ := split_at (fun x hx => hu x (by simp [hx])) (fun x hx => hv x (by simp [hx])) hs ht h.2
    exact ⟨by rw [h.1, e1], e2⟩

theorem readable_of {α : Type} {f : α → List Char} (hinj : ∀ a b, f a = f b → a = b)
    (hc : ∀ a, ∀ c ∈ f a, ¬ (c = ',' ∨ c = ')' ∨ c = ']')) : Readable f := by
  intro a b s t hs ht h
  obtain ⟨e1, e2⟩ := split_at (P := fun c => c = ',' ∨ c = ')' ∨ c = ']') (hc a) (hc b) hs ht h
  exact ⟨hinj _ _ e1, e2⟩

theorem natText_plain (n : ℕ) : ∀ c ∈ natText n, ¬ (c = ',' ∨ c = ')' ∨ c = ']') := by
  intro c hc
  obtain ⟨a, ha, rfl⟩ := mem_natText hc
  have := digitChar_not ha
  tauto

theorem intText_plain (z : ℤ) : ∀ c ∈ intText z, ¬ (c = ',' ∨ c = ')' ∨ c = ']') := by
  intro c hc
  rcases mem_intText hc with rfl | ⟨a, ha, rfl⟩
  · decide
  · have := digitChar_not ha
    tauto

theorem intText_slash (z : ℤ) : ∀ c ∈ intText z, ¬ c = '/' := by
  intro c hc
  rcases mem_intText hc with rfl | ⟨a, ha, rfl⟩
  · decide
  · exact (digitChar_not ha).2.2.2.2

/-- C65: `str` of fractions can be read back. -/
theorem fractionStr_readable : Readable fractionStr := by
  refine readable_of ?_ ?_
  · intro a b h
    unfold fractionStr at h
    have hs : ∀ q : ℚ, (if q.den = 1 then [] else '/' :: natText q.den) = [] ∨
        ∃ c r, (if q.den = 1 then [] else '/' :: natText q.den) = c :: r ∧ c = '/' := by
      intro q
      split_ifs
      · exact Or.inl rfl
      · exact Or.inr ⟨_, _, rfl, rfl⟩
    obtain ⟨e1, e2⟩ := split_at (P := fun c => c = '/') (intText_slash _) (intText_slash _) (hs a) (hs b) h
    refine Rat.ext (intText_inj e1) ?_
    split_ifs at e2 with x y y
    · rw [x, y]
    · exact natText_inj (List.cons.inj e2).2
  · intro a c hc
    unfold fractionStr at hc
    rcases List.mem_append.mp hc with w | w
    · exact intText_plain _ c w
    · split_ifs at w
      · cases w
      · rcases List.mem_cons.mp w with rfl | w
        · decide
        · exact natText_plain _ c w

/-- C65: `repr` of fractions can be read back. -/
theorem fractionRepr_readable : Readable fractionRepr := by
  intro a b s t _ _ h
  unfold fractionRepr at h
  simp only [List.append_assoc] at h
  obtain ⟨e1, h1⟩ := readable_of (fun _ _ => intText_inj) intText_plain _ _ _ _ (ended_comma _) (ended_comma _)
    (List.append_cancel_left h)
  obtain ⟨e2, h2⟩ := readable_of (fun _ _ => natText_inj) natText_plain _ _ _ _ (ended_paren _) (ended_paren _)
    (List.append_cancel_left h1)
  exact ⟨Rat.ext e1 e2, List.append_cancel_left h2⟩

end Text

/-- C65: two geometries of any kinds with one text are of the same kind and have the same parts in the same order, as long
as the texts of scalars can be read back. -/
theorem C65_text_determines_geometry (scalar : ℚ → List Char) (hs : Spec.Readable scalar) (a b : Geom)
    (h : Text.geom scalar a = Text.geom scalar b) : a = b := by
  have go : ∀ {α : Type} {f : α → List Char}, Spec.Readable f → ∀ x y, f x = f y → x = y := by
    intro α f hf x y e
    exact (hf x y [] [] (Or.inl rfl) (Or.inl rfl) (by rw [List.append_nil, List.append_nil]; exact e)).1
  cases a with
  | empty =>
    cases b with
    | empty => exact rfl
    | segment y => exact absurd (List.cons.inj h).1 (by decide)
    | multisegment y => exact absurd (List.cons.inj h).1 (by decide)
    | contour y => exact absurd (List.cons.inj h).1 (by decide)
    | polygon y => exact absurd (List.cons.inj h).1 (by decide)
    | multipolygon y => exact absurd (List.cons.inj h).1 (by decide)
  | segment x =>
    cases b with
    | empty => exact absurd (List.cons.inj h).1 (by decide)
    | segment y => rw [go (segment_read hs) x y h]
    | multisegment y => exact absurd (List.cons.inj h).1 (by decide)
    | contour y => exact absurd (List.cons.inj h).1 (by decide)
    | polygon y => exact absurd (List.cons.inj h).1 (by decide)
    | multipolygon y => exact absurd (List.cons.inj h).1 (by decide)
  | multisegment x =>
    cases b with
    | empty => exact absurd (List.cons.inj h).1 (by decide)
    | segment y => exact absurd (List.cons.inj h).1 (by decide)
    | multisegment y => rw [go (multisegment_read hs) x y h]
    | contour y => exact absurd (List.cons.inj h).1 (by decide)
    | polygon y => exact absurd (List.cons.inj h).1 (by decide)
    | multipolygon y => exact absurd (List.cons.inj (List.cons.inj (List.cons.inj (List.cons.inj (List.cons.inj (List.cons.inj h).2).2).2).2).2).1 (by decide)
  | contour x =>
    cases b with
    | empty => exact absurd (List.cons.inj h).1 (by decide)
    | segment y => exact absurd (List.cons.inj h).1 (by decide)
    | multisegment y => exact absurd (List.cons.inj h).1 (by decide)
    | contour y => rw [go (contour_read hs) x y h]
    | polygon y => exact absurd (List.cons.inj h).1 (by decide)
    | multipolygon y => exact absurd (List.cons.inj h).1 (by decide)
  | polygon x =>
    cases b with
    | empty => exact absurd (List.cons.inj h).1 (by decide)
    | segment y => exact absurd (List.cons.inj h).1 (by decide)
    | multisegment y => exact absurd (List.cons.inj h).1 (by decide)
    | contour y => exact absurd (List.cons.inj h).1 (by decide)
    | polygon y => rw [go (polygon_read hs) x y h]
    | multipolygon y => exact absurd (List.cons.inj h).1 (by decide)
  | multipolygon x =>
    cases b with
    | empty => exact absurd (List.cons.inj h).1 (by decide)
    | segment y => exact absurd (List.cons.inj h).1 (by decide)
    | multisegment y => exact absurd (List.cons.inj (List.cons.inj (List.cons.inj (List.cons.inj (List.cons.inj (List.cons.inj h).2).2).2).2).2).1 (by decide)
    | contour y => exact absurd (List.cons.inj h).1 (by decide)
    | polygon y => exact absurd (List.cons.inj h).1 (by decide)
    | multipolygon y => rw [go (multipolygon_read hs) x y h]

/-- C65: with `str` of fractions, and with their `repr`. -/
theorem C65_fractions (a b : Geom) :
    (Text.geom Spec.fractionStr a = Text.geom Spec.fractionStr b ↔ a = b) ∧
    (Text.geom Spec.fractionRepr a = Text.geom Spec.fractionRepr b ↔ a = b) :=
  ⟨⟨C65_text_determines_geometry _ fractionStr_readable a b, fun e => by rw [e]⟩,
    C65_text_determines_geometry _ fractionRepr_readable a b, fun e => by rw [e]⟩

/-- C65: points and boxes. -/
theorem C65_points_and_boxes (scalar : ℚ → List Char) (hs : Spec.Readable scalar) :
    (∀ a b, Text.point scalar a = Text.point scalar b → a = b) ∧ (∀ a b, Text.box scalar a = Text.box scalar b → a = b) := by
  have go : ∀ {α : Type} {f : α → List Char}, Spec.Readable f → ∀ x y, f x = f y → x = y := by
    intro α f hf x y e
    exact (hf x y [] [] (Or.inl rfl) (Or.inl rfl) (by rw [List.append_nil, List.append_nil]; exact e)).1
  exact ⟨go (point_read hs), go (box_read hs)⟩

/-- C65: a text. -/
example : Text.geom Spec.fractionStr (.polygon ⟨⟨[⟨0, 0⟩, ⟨-3 / 2, 0⟩, ⟨10, 7⟩]⟩, [⟨[⟨1, 2⟩]⟩, ⟨[]⟩]⟩) =
    "Polygon(Contour([Point(0, 0), Point(-3/2, 0), Point(10, 7)]), [Contour([Point(1, 2)]), Contour([])])".toList := by
  decide +kernel

end Rene
