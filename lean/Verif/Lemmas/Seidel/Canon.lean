import Verif.Lemmas.Seidel.Corner

/-! Links between neighbours: a trapezoid is linked to the one with the same upper (lower) edge which begins where it
ends. -/

namespace Rene.Seidel

structure Canon (leaf : ℕ → Prop) (ed : ℕ → ℕ) (xl xr : ℕ → ℚ) (R L : ℕ → Option ℕ) : Prop where
  r : ∀ i, leaf i → ∀ j, R i = some j ↔ leaf j ∧ ed i = ed j ∧ xr i = xl j
  l : ∀ j, leaf j → ∀ i, L j = some i ↔ leaf i ∧ ed i = ed j ∧ xr i = xl j

/-- Soundness and existence are enough when neighbours are unique. -/
theorem Canon.of {leaf : ℕ → Prop} {ed : ℕ → ℕ} {xl xr : ℕ → ℚ} {R L : ℕ → Option ℕ}
    (uL : ∀ i j, leaf i → leaf j → ed i = ed j → xl i = xl j → i = j)
    (uR : ∀ i j, leaf i → leaf j → ed i = ed j → xr i = xr j → i = j)
    (s1 : ∀ i, leaf i → ∀ j, R i = some j → leaf j ∧ ed i = ed j ∧ xr i = xl j)
    (s2 : ∀ j, leaf j → ∀ i, L j = some i → leaf i ∧ ed i = ed j ∧ xr i = xl j)
    (e1 : ∀ i j, leaf i → leaf j → ed i = ed j → xr i = xl j → R i ≠ none)
    (e2 : ∀ i j, leaf i → leaf j → ed i = ed j → xr i = xl j → L j ≠ none) : Canon leaf ed xl xr R L where
  r := fun i hi j => ⟨s1 i hi j, fun ⟨h1, h2, h3⟩ => by
    obtain ⟨j', hj'⟩ := Option.ne_none_iff_exists'.mp (e1 i j hi h1 h2 h3)
    obtain ⟨k1, k2, k3⟩ := s1 i hi j' hj'
    rw [hj', uL j' j k1 h1 (k2.symm.trans h2) (k3.symm.trans h3)]⟩
  l := fun j hj i => ⟨s2 j hj i, fun ⟨h1, h2, h3⟩ => by
    obtain ⟨j', hj'⟩ := Option.ne_none_iff_exists'.mp (e2 i j h1 hj h2 h3)
    obtain ⟨k1, k2, k3⟩ := s2 j hj j' hj'
    rw [hj', uR j' i k1 h1 (k2.trans h2.symm) (k3.trans h3.symm)]⟩

/-- The links of one kind after splitting `t`: `c` is the trapezoid which keeps the edge of this kind, `o` the one
which gets the inserted edge `e`. -/
structure LinkStep (leaf leaf' : ℕ → Prop) (R L R' L' : ℕ → Option ℕ) (t c o : ℕ) (lo ro po : Option ℕ) : Prop where
  Rl : ∀ l, lo = some l → R' l = some c
  Rc0 : ro = none → R' c = R t
  Rc1 : ∀ r, ro = some r → R' c = some r
  Rr : ∀ r, ro = some r → R' r = R t
  Ro0 : leaf o → R' o = R o
  Ro1 : ¬ leaf o → R' o = none
  Rp : ¬ leaf o → ∀ p, po = some p → R' p = some o
  Rold : ∀ i, leaf i → i ≠ t → i ≠ c → i ≠ o → (¬ leaf o → po ≠ some i) →
    R' i = if L t = some i then some (lo.getD c) else R i
  Ll : ∀ l, lo = some l → L' l = L t
  Lc0 : leaf c → L' c = L c
  Lc1 : ¬ leaf c → lo = none → L' c = L t
  Lc2 : ¬ leaf c → ∀ l, lo = some l → L' c = some l
  Lr : ∀ r, ro = some r → L' r = some c
  Lo0 : leaf o → L' o = L o
  Lo1 : ¬ leaf o → L' o = po
  Lold : ∀ i, leaf i → i ≠ t → i ≠ c → i ≠ o → L' i = if R t = some i then some (ro.getD c) else L i

/-- The geometry of the trapezoids around. -/
structure StepGeo (leaf leaf' : ℕ → Prop) (ed ed' : ℕ → ℕ) (xl xr xl' xr' : ℕ → ℚ) (e t c o : ℕ)
    (lo ro po : Option ℕ) : Prop where
  ht : leaf t
  lt : ∀ i, leaf i → xl i < xr i
  lt' : ∀ i, leaf' i → xl' i < xr' i
  lf : ∀ i, leaf' i ↔ (leaf i ∧ i ≠ t) ∨ i = c ∨ i = o ∨ lo = some i ∨ ro = some i
  ct : c ≠ t
  ot : o ≠ t
  co : c ≠ o
  lon : ∀ l, lo = some l → ¬ leaf l ∧ l ≠ c ∧ l ≠ o
  ron : ∀ l, ro = some l → ¬ leaf l ∧ l ≠ c ∧ l ≠ o
  lr : ∀ l, lo = some l → ro ≠ some l
  keep : ∀ i, leaf i → i ≠ t → i ≠ c → i ≠ o → ed' i = ed i ∧ xl' i = xl i ∧ xr' i = xr i
  edc : ed' c = ed t
  cN : ¬ leaf c → lo = none → xl' c = xl t
  cE : leaf c → lo = none ∧ ed c = ed t ∧ xr c = xl t ∧ xl' c = xl c
  xrc : ro = none → xr' c = xr t
  l : ∀ l, lo = some l → ed' l = ed t ∧ xl' l = xl t ∧ xr' l = xl' c
  r : ∀ l, ro = some l → ed' l = ed t ∧ xr' l = xr t ∧ xl' l = xr' c
  edo : ed' o = e
  ne : e ≠ ed t
  xro : xl t < xr' o
  old : ∀ i, leaf i → ed i = e → xr i ≤ xl t
  oN : ¬ leaf o → (∀ p, po = some p → leaf p ∧ p ≠ t ∧ p ≠ c ∧ p ≠ o ∧ ed p = e ∧ xr p = xl t ∧ xl' o = xl t) ∧
    (po = none → ∀ i, leaf i → ed i ≠ e)
  oE : leaf o → ed o = e ∧ xl' o = xl o ∧ xr o = xl t

theorem Canon.step {leaf leaf' : ℕ → Prop} {ed ed' : ℕ → ℕ} {xl xr xl' xr' : ℕ → ℚ} {R L R' L' : ℕ → Option ℕ}
    {e t c o : ℕ} {lo ro po : Option ℕ} (h : Canon leaf ed xl xr R L)
    (G : StepGeo leaf leaf' ed ed' xl xr xl' xr' e t c o lo ro po)
    (S : LinkStep leaf leaf' R L R' L' t c o lo ro po)
    (uL : ∀ i j, leaf' i → leaf' j → ed' i = ed' j → xl' i = xl' j → i = j)
    (uR : ∀ i j, leaf' i → leaf' j → ed' i = ed' j → xr' i = xr' j → i = j) :
    Canon leaf' ed' xl' xr' R' L' := by
  have lc : leaf' c := (G.lf c).mpr (by simp)
  have lo' : leaf' o := (G.lf o).mpr (by simp)
  have ll : ∀ l, lo = some l → leaf' l := fun l hl => (G.lf l).mpr (by simp [hl])
  have lr : ∀ l, ro = some l → leaf' l := fun l hl => (G.lf l).mpr (by simp [hl])
  have lold : ∀ i, leaf i → i ≠ t → leaf' i := fun i h1 h2 => (G.lf i).mpr (Or.inl ⟨h1, h2⟩)
  have hlt := G.lt t G.ht
  -- kinds of leaves
  have kinds : ∀ i, leaf' i → i = c ∨ i = o ∨ lo = some i ∨ ro = some i ∨ (leaf i ∧ i ≠ t ∧ i ≠ c ∧ i ≠ o) := by
    intro i hi
    by_cases h1 : i = c
    · exact Or.inl h1
    by_cases h2 : i = o
    · exact Or.inr (Or.inl h2)
    rcases (G.lf i).mp hi with k | k | k | k | k
    · exact Or.inr (Or.inr (Or.inr (Or.inr ⟨k.1, k.2, h1, h2⟩)))
    · exact absurd k h1
    · exact absurd k h2
    · exact Or.inr (Or.inr (Or.inl k))
    · exact Or.inr (Or.inr (Or.inr (Or.inl k)))
  -- the right neighbour of `t` in the new decomposition
  have tR : ∀ j, R t = some j → leaf' j ∧ ed t = ed' j ∧ xr t = xl' j := by
    intro j hj
    obtain ⟨k1, k2, k3⟩ := (h.r t G.ht j).mp hj
    have hlj := G.lt j k1
    have j1 : j ≠ t := by rintro rfl; linarith
    refine ⟨lold j k1 j1, ?_⟩
    by_cases hc : j = c
    · subst hc
      obtain ⟨-, -, w1, w2⟩ := G.cE k1
      linarith
    by_cases ho : j = o
    · subst ho
      exact absurd (k2.trans (G.oE k1).1).symm G.ne
    obtain ⟨w1, w2, w3⟩ := G.keep j k1 j1 hc ho
    rw [w1, w2]; exact ⟨k2, k3⟩
  have tL : ∀ j, L t = some j → leaf' j ∧ ed' j = ed t ∧ (j ≠ c → xr' j = xl t) := by
    intro j hj
    obtain ⟨k1, k2, k3⟩ := (h.l t G.ht j).mp hj
    have hlj := G.lt j k1
    have j1 : j ≠ t := by rintro rfl; linarith
    refine ⟨lold j k1 j1, ?_⟩
    by_cases hc : j = c
    · subst hc; exact ⟨G.edc, fun q => absurd rfl q⟩
    by_cases ho : j = o
    · subst ho
      exact absurd (k2.symm.trans (G.oE k1).1).symm G.ne
    obtain ⟨w1, w2, w3⟩ := G.keep j k1 j1 hc ho
    rw [w1, w3]; exact ⟨k2, fun _ => k3⟩
  -- there is none with the inserted edge to the right
  have noE : ∀ j, leaf' j → ed' j = e → xr' o ≠ xl' j := by
    intro j hj hje hx
    have hxo := G.xro
    have hjl := G.lt' j hj
    rcases kinds j hj with k | k | k | k | ⟨k1, k2, k3, k4⟩
    · rw [k, G.edc] at hje; exact G.ne hje.symm
    · rw [k] at hx hjl; linarith
    · rw [(G.l j k).1] at hje; exact G.ne hje.symm
    · rw [(G.r j k).1] at hje; exact G.ne hje.symm
    · obtain ⟨w1, w2, w3⟩ := G.keep j k1 k2 k3 k4
      rw [w1] at hje
      have := G.old j k1 hje
      rw [w2] at hx
      have := G.lt j k1
      linarith
  refine Canon.of uL uR ?_ ?_ ?_ ?_
  · intro i hi j hj
    rcases kinds i hi with k | k | k | k | ⟨k1, k2, k3, k4⟩
    · subst k
      rcases hro : ro with _ | r
      · rw [S.Rc0 hro] at hj
        rw [G.edc, G.xrc hro]
        exact tR j hj
      · rw [S.Rc1 r hro] at hj; cases hj
        have := G.r j hro
        exact ⟨lr j hro, by rw [G.edc, this.1], this.2.2.symm⟩
    · subst k
      by_cases hl : leaf i
      · rw [S.Ro0 hl] at hj
        obtain ⟨w1, w2, w3⟩ := (h.r i hl j).mp hj
        have := G.oE hl
        rw [this.1] at w2
        have := G.old j w1 w2.symm
        have := G.lt j w1
        linarith
      · rw [S.Ro1 hl] at hj; cases hj
    · rw [S.Rl i k] at hj; cases hj
      have := G.l i k
      exact ⟨lc, by rw [this.1, G.edc], this.2.2⟩
    · rw [S.Rr i k] at hj
      have := G.r i k
      rw [this.1, this.2.1]
      exact tR j hj
    · obtain ⟨w1, w2, w3⟩ := G.keep i k1 k2 k3 k4
      rw [w1, w3]
      by_cases hp : ¬ leaf o ∧ po = some i
      · rw [S.Rp hp.1 i hp.2] at hj; cases hj
        obtain ⟨v1, v2, v3, v4, v5, v6, v7⟩ := (G.oN hp.1).1 i hp.2
        exact ⟨lo', by rw [v5, G.edo], by rw [v6, v7]⟩
      rw [S.Rold i k1 k2 k3 k4 (fun q q' => hp ⟨q, q'⟩)] at hj
      by_cases hL : L t = some i
      · rw [if_pos hL] at hj
        obtain ⟨v1, v2, v3⟩ := (h.l t G.ht i).mp hL
        rcases hlo : lo with _ | l
        · rw [hlo] at hj; simp only [Option.getD_none, Option.getD_some, Option.some.injEq] at hj; subst hj
          refine ⟨lc, by rw [G.edc, v2], ?_⟩
          by_cases hcl : leaf c
          · exfalso
            obtain ⟨-, u1, u2, -⟩ := G.cE hcl
            have q1 := (h.l t G.ht c).mpr ⟨hcl, u1, u2⟩
            rw [hL] at q1; cases q1; exact k3 rfl
          · rw [G.cN hcl hlo, v3]
        · rw [hlo] at hj; simp only [Option.getD_none, Option.getD_some, Option.some.injEq] at hj; subst hj
          have := G.l l hlo
          exact ⟨ll l hlo, by rw [this.1, v2], by rw [this.2.1, v3]⟩
      · rw [if_neg hL] at hj
        obtain ⟨v1, v2, v3⟩ := (h.r i k1 j).mp hj
        have jt : j ≠ t := by
          rintro rfl
          exact hL ((h.l j v1 i).mpr ⟨k1, v2, v3⟩)
        refine ⟨lold j v1 jt, ?_⟩
        by_cases hc : j = c
        · subst hc
          obtain ⟨-, u1, u2, u3⟩ := G.cE v1
          rw [G.edc, v2, u1, u3]; exact ⟨rfl, v3⟩
        by_cases ho : j = o
        · subst ho
          have := G.oE v1
          rw [G.edo, v2, this.1, this.2.1]; exact ⟨rfl, v3⟩
        obtain ⟨x1, x2, x3⟩ := G.keep j v1 jt hc ho
        rw [x1, x2]; exact ⟨v2, v3⟩
  · intro j hj i hi
    rcases kinds j hj with k | k | k | k | ⟨k1, k2, k3, k4⟩
    · subst k
      by_cases hcl : leaf j
      · rw [S.Lc0 hcl] at hi
        obtain ⟨v0, u1, u2, u3⟩ := G.cE hcl
        obtain ⟨v1, v2, v3⟩ := (h.l j hcl i).mp hi
        have hlj := G.lt j hcl
        have hli := G.lt i v1
        have it : i ≠ t := by rintro rfl; linarith
        have ic : i ≠ j := by rintro rfl; linarith
        have io : i ≠ o := by
          rintro rfl
          have := (G.oE v1).1
          rw [← v2, this] at u1; exact G.ne u1
        obtain ⟨x1, x2, x3⟩ := G.keep i v1 it ic io
        exact ⟨lold i v1 it, by rw [x1, v2, u1, G.edc], by rw [x3, v3, u3]⟩
      · rcases hlo : lo with _ | l
        · rw [S.Lc1 hcl hlo] at hi
          have := tL i hi
          have ic : i ≠ j := by
            rintro rfl
            exact hcl ((h.l t G.ht i).mp hi).1
          exact ⟨this.1, by rw [this.2.1, G.edc], by rw [this.2.2 ic, G.cN hcl hlo]⟩
        · rw [S.Lc2 hcl l hlo] at hi; cases hi
          have := G.l i hlo
          exact ⟨ll i hlo, by rw [this.1, G.edc], this.2.2⟩
    · subst k
      by_cases hol : leaf j
      · rw [S.Lo0 hol] at hi
        obtain ⟨v1, v2, v3⟩ := (h.l j hol i).mp hi
        obtain ⟨u1, u2, u3⟩ := G.oE hol
        have hlj := G.lt j hol
        have hli := G.lt i v1
        have it : i ≠ t := by rintro rfl; exact G.ne (v2.trans u1).symm
        have ic : i ≠ c := by
          rintro rfl
          have := (G.cE v1).2.1
          exact G.ne (by rw [← this, v2, u1])
        have io : i ≠ j := by rintro rfl; linarith
        obtain ⟨x1, x2, x3⟩ := G.keep i v1 it ic io
        exact ⟨lold i v1 it, by rw [x1, v2, u1, G.edo], by rw [x3, v3, u2]⟩
      · rw [S.Lo1 hol] at hi
        obtain ⟨v1, v2, v3, v4, v5, v6, v7⟩ := (G.oN hol).1 i hi
        obtain ⟨x1, x2, x3⟩ := G.keep i v1 v2 v3 v4
        exact ⟨lold i v1 v2, by rw [x1, v5, G.edo], by rw [x3, v6, v7]⟩
    · rw [S.Ll j k] at hi
      have := G.l j k
      have w := tL i hi
      have ic : i ≠ c := by
        rintro rfl
        have := G.cE ((h.l t G.ht i).mp hi).1
        rw [k] at this; cases this.1
      exact ⟨w.1, by rw [w.2.1, this.1], by rw [w.2.2 ic, this.2.1]⟩
    · rw [S.Lr j k] at hi; cases hi
      have := G.r j k
      exact ⟨lc, by rw [this.1, G.edc], this.2.2.symm⟩
    · obtain ⟨w1, w2, w3⟩ := G.keep j k1 k2 k3 k4
      rw [w1, w2]
      rw [S.Lold j k1 k2 k3 k4] at hi
      by_cases hR : R t = some j
      · rw [if_pos hR] at hi
        obtain ⟨v1, v2, v3⟩ := (h.r t G.ht j).mp hR
        rcases hro : ro with _ | r
        · rw [hro] at hi; simp only [Option.getD_none, Option.getD_some, Option.some.injEq] at hi; subst hi
          exact ⟨lc, by rw [G.edc, v2], by rw [G.xrc hro, v3]⟩
        · rw [hro] at hi; simp only [Option.getD_none, Option.getD_some, Option.some.injEq] at hi; subst hi
          have := G.r r hro
          exact ⟨lr r hro, by rw [this.1, v2], by rw [this.2.1, v3]⟩
      · rw [if_neg hR] at hi
        obtain ⟨v1, v2, v3⟩ := (h.l j k1 i).mp hi
        have it : i ≠ t := by
          rintro rfl
          exact hR ((h.r i v1 j).mpr ⟨k1, v2, v3⟩)
        refine ⟨lold i v1 it, ?_⟩
        by_cases hc : i = c
        · subst hc
          exfalso
          obtain ⟨-, u1, u2, u3⟩ := G.cE v1
          -- `j` and `t` both begin where `i` ends
          have q1 := (h.r i v1 t).mpr ⟨G.ht, u1, u2⟩
          have q2 := (h.r i v1 j).mpr ⟨k1, v2, v3⟩
          rw [q1] at q2; cases q2; exact k2 rfl
        by_cases ho : i = o
        · subst ho
          exfalso
          obtain ⟨u1, u2, u3⟩ := G.oE v1
          have := G.old j k1 (by rw [← v2, u1])
          have := G.lt j k1
          linarith
        obtain ⟨x1, x2, x3⟩ := G.keep i v1 it hc ho
        rw [x1, x3]; exact ⟨v2, v3⟩
  · intro i j hi hj he hx
    rcases kinds i hi with k | k | k | k | ⟨k1, k2, k3, k4⟩
    · subst k
      rcases hro : ro with _ | r
      · rw [S.Rc0 hro]
        rw [G.edc] at he; rw [G.xrc hro] at hx
        rcases kinds j hj with q | q | q | q | ⟨q1, q2, q3, q4⟩
        · exfalso; subst q
          have := G.lt' j hj; rw [G.xrc hro] at this; linarith
        · exfalso; rw [q, G.edo] at he; exact G.ne he.symm
        · exfalso
          have u := G.l j q
          rw [u.2.1] at hx; linarith
        · rw [hro] at q; cases q
        · obtain ⟨x1, x2, x3⟩ := G.keep j q1 q2 q3 q4
          rw [x1] at he; rw [x2] at hx
          rw [(h.r t G.ht j).mpr ⟨q1, he, hx⟩]; simp
      · rw [S.Rc1 r hro]; simp
    · subst k
      rw [G.edo] at he
      exact absurd hx (noE j hj he.symm)
    · rw [S.Rl i k]; simp
    · rw [S.Rr i k]
      have u := G.r i k
      rw [u.1] at he; rw [u.2.1] at hx
      rcases kinds j hj with q | q | q | q | ⟨q1, q2, q3, q4⟩
      · exfalso; subst q
        have w1 := G.lt' i hi
        have w2 := G.lt' j hj
        rw [u.2.1, u.2.2] at w1; linarith
      · exfalso; rw [q, G.edo] at he; exact G.ne he.symm
      · exfalso
        have u := G.l j q
        rw [u.2.1] at hx; linarith
      · exfalso
        rw [k] at q; cases q
        have w1 := G.lt' i hi
        rw [u.2.1] at w1; linarith
      · obtain ⟨x1, x2, x3⟩ := G.keep j q1 q2 q3 q4
        rw [x1] at he; rw [x2] at hx
        rw [(h.r t G.ht j).mpr ⟨q1, he, hx⟩]; simp
    · obtain ⟨w1, w2, w3⟩ := G.keep i k1 k2 k3 k4
      rw [w1] at he; rw [w3] at hx
      by_cases hp : ¬ leaf o ∧ po = some i
      · rw [S.Rp hp.1 i hp.2]; simp
      rw [S.Rold i k1 k2 k3 k4 (fun q q' => hp ⟨q, q'⟩)]
      by_cases hL : L t = some i
      · rw [if_pos hL]; simp
      rw [if_neg hL]
      rcases kinds j hj with q | q | q | q | ⟨q1, q2, q3, q4⟩
      · subst q
        rw [G.edc] at he
        by_cases hcl : leaf j
        · obtain ⟨v0, u1, u2, u3⟩ := G.cE hcl
          rw [u3] at hx
          rw [(h.r i k1 j).mpr ⟨hcl, by rw [he, u1], hx⟩]; simp
        · exfalso
          rcases hlo : lo with _ | l
          · rw [G.cN hcl hlo] at hx
            exact hL ((h.l t G.ht i).mpr ⟨k1, he, hx⟩)
          · have u := G.l l hlo
            have q := uR i l hi (ll l hlo) (by rw [w1, u.1, he]) (by rw [w3, u.2.2, hx])
            rw [q] at k1; exact (G.lon l hlo).1 k1
      · subst q
        rw [G.edo] at he
        by_cases hol : leaf j
        · obtain ⟨u1, u2, u3⟩ := G.oE hol
          rw [u2] at hx
          rw [(h.r i k1 j).mpr ⟨hol, by rw [he, u1], hx⟩]; simp
        · exfalso
          rcases hpo : po with _ | p
          · exact (G.oN hol).2 hpo i k1 he
          · obtain ⟨v1, v2, v3, v4, v5, v6, v7⟩ := (G.oN hol).1 p hpo
            obtain ⟨x1, x2, x3⟩ := G.keep p v1 v2 v3 v4
            have q := uR i p hi (lold p v1 v2) (by rw [w1, x1, he, v5]) (by rw [w3, x3, v6, hx, v7])
            exact hp ⟨hol, by rw [hpo, q]⟩
      · exfalso
        have u := G.l j q
        rw [u.1] at he; rw [u.2.1] at hx
        exact hL ((h.l t G.ht i).mpr ⟨k1, he, hx⟩)
      · exfalso
        have u := G.r j q
        rw [u.1] at he; rw [u.2.2] at hx
        have q := uR i c hi lc (by rw [w1, G.edc, he]) (by rw [w3, hx])
        exact k3 q
      · obtain ⟨x1, x2, x3⟩ := G.keep j q1 q2 q3 q4
        rw [x1] at he; rw [x2] at hx
        rw [(h.r i k1 j).mpr ⟨q1, he, hx⟩]; simp
  · intro i j hi hj he hx
    rcases kinds j hj with k | k | k | k | ⟨k1, k2, k3, k4⟩
    · subst k
      rw [G.edc] at he
      by_cases hcl : leaf j
      · rw [S.Lc0 hcl]
        obtain ⟨v0, u1, u2, u3⟩ := G.cE hcl
        rw [u3] at hx
        have hlj := G.lt j hcl
        rcases kinds i hi with q | q | q | q | ⟨q1, q2, q3, q4⟩
        · exfalso; subst q
          have := G.lt' i hi; rw [u3] at this; linarith
        · exfalso; rw [q, G.edo] at he; exact G.ne he
        · rw [v0] at q; cases q
        · exfalso
          have u := G.r i q
          rw [u.2.1] at hx; linarith
        · obtain ⟨x1, x2, x3⟩ := G.keep i q1 q2 q3 q4
          rw [x1] at he; rw [x3] at hx
          rw [(h.l j hcl i).mpr ⟨q1, by rw [he, u1], hx⟩]; simp
      · rcases hlo : lo with _ | l
        · rw [S.Lc1 hcl hlo]
          rw [G.cN hcl hlo] at hx
          rcases kinds i hi with q | q | q | q | ⟨q1, q2, q3, q4⟩
          · exfalso; subst q
            have := G.lt' i hi; rw [G.cN hcl hlo] at this; linarith
          · exfalso; rw [q, G.edo] at he; exact G.ne he
          · rw [hlo] at q; cases q
          · exfalso
            have u := G.r i q
            rw [u.2.1] at hx; linarith
          · obtain ⟨x1, x2, x3⟩ := G.keep i q1 q2 q3 q4
            rw [x1] at he; rw [x3] at hx
            rw [(h.l t G.ht i).mpr ⟨q1, he, hx⟩]; simp
        · rw [S.Lc2 hcl l hlo]; simp
    · subst k
      rw [G.edo] at he
      by_cases hol : leaf j
      · rw [S.Lo0 hol]
        obtain ⟨u1, u2, u3⟩ := G.oE hol
        rw [u2] at hx
        have hlj := G.lt j hol
        rcases kinds i hi with q | q | q | q | ⟨q1, q2, q3, q4⟩
        · exfalso; rw [q, G.edc] at he; exact G.ne he.symm
        · exfalso; subst q
          have := G.lt' i hi; rw [u2] at this; linarith
        · exfalso; rw [(G.l i q).1] at he; exact G.ne he.symm
        · exfalso; rw [(G.r i q).1] at he; exact G.ne he.symm
        · obtain ⟨x1, x2, x3⟩ := G.keep i q1 q2 q3 q4
          rw [x1] at he; rw [x3] at hx
          rw [(h.l j hol i).mpr ⟨q1, by rw [he, u1], hx⟩]; simp
      · rw [S.Lo1 hol]
        rcases hpo : po with _ | p
        · exfalso
          rcases kinds i hi with q | q | q | q | ⟨q1, q2, q3, q4⟩
          · rw [q, G.edc] at he; exact G.ne he.symm
          · subst q
            have := G.lt' i hi; linarith
          · rw [(G.l i q).1] at he; exact G.ne he.symm
          · rw [(G.r i q).1] at he; exact G.ne he.symm
          · obtain ⟨x1, x2, x3⟩ := G.keep i q1 q2 q3 q4
            rw [x1] at he
            exact (G.oN hol).2 hpo i q1 he
        · simp
    · rw [S.Ll j k]
      have u := G.l j k
      rw [u.1] at he; rw [u.2.1] at hx
      rcases kinds i hi with q | q | q | q | ⟨q1, q2, q3, q4⟩
      · exfalso; subst q
        have w1 := G.lt' j hj
        have w2 := G.lt' i hi
        rw [u.2.1, u.2.2] at w1; linarith
      · exfalso; rw [q, G.edo] at he; exact G.ne he
      · exfalso
        rw [k] at q; cases q
        have w1 := G.lt' _ hj
        rw [u.2.1] at w1; linarith
      · exfalso
        have u := G.r i q
        rw [u.2.1] at hx; linarith
      · obtain ⟨x1, x2, x3⟩ := G.keep i q1 q2 q3 q4
        rw [x1] at he; rw [x3] at hx
        rw [(h.l t G.ht i).mpr ⟨q1, he, hx⟩]; simp
    · rw [S.Lr j k]; simp
    · obtain ⟨w1, w2, w3⟩ := G.keep j k1 k2 k3 k4
      rw [w1] at he; rw [w2] at hx
      rw [S.Lold j k1 k2 k3 k4]
      by_cases hR : R t = some j
      · rw [if_pos hR]; simp
      rw [if_neg hR]
      rcases kinds i hi with q | q | q | q | ⟨q1, q2, q3, q4⟩
      · exfalso
        subst q
        rw [G.edc] at he
        rcases hro : ro with _ | r
        · rw [G.xrc hro] at hx
          exact hR ((h.r t G.ht j).mpr ⟨k1, he, hx⟩)
        · have u := G.r r hro
          have q := uL j r hj (lr r hro) (by rw [w1, u.1, he]) (by rw [w2, u.2.2, hx])
          rw [q] at k1; exact (G.ron r hro).1 k1
      · exfalso
        subst q
        rw [G.edo] at he
        exact noE j hj (by rw [w1, he]) (by rw [w2, hx])
      · exfalso
        have u := G.l i q
        rw [u.2.2] at hx; rw [u.1] at he
        have q := uL j c hj lc (by rw [w1, G.edc, he]) (by rw [w2, hx])
        exact k3 q
      · exfalso
        have u := G.r i q
        rw [u.1] at he; rw [u.2.1] at hx
        exact hR ((h.r t G.ht j).mpr ⟨k1, he, hx⟩)
      · obtain ⟨x1, x2, x3⟩ := G.keep i q1 q2 q3 q4
        rw [x1] at he; rw [x3] at hx
        rw [(h.l j k1 i).mpr ⟨q1, he, hx⟩]; simp

end Rene.Seidel
