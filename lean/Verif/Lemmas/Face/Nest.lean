import Verif.Lemmas.Face.Walk

/-! The contours cut out of a plane graph one after another do not cross each other. -/

namespace Rene.Face

variable {δ : Type} [Fintype δ] [DecidableEq δ] {D : Darts δ} {side : (δ → Bool) → δ → Bool}

/-- A set of edges on one part of the plane does not separate the edges of the other part. -/
theorem Darts.Good.apart (g : D.Good side) {C L : δ → Bool} {β : Bool} (hC : D.Ev C) (hL : D.Ev L)
    (zero : ∀ c, C c = true → side L c = false) (sub : ∀ d, L d = true → side C d = β) {x : δ} (hx : C x = false)
    (h : side C x = !β) : side L x = false := by
  have key : ∀ m d, D.rank d = m → D.lf d = true → side C (D.opp d) = (!β) → side L (D.opp d) = false := by
    intro m
    induction m using Nat.strong_induction_on with
    | _ m ih =>
      intro d hm hd h
      rcases g.down d hd with k | ⟨b, b1, b2, b3⟩
      · exact k L hL
      · rw [b3 L hL]
        rw [b3 C hC] at h
        by_cases hb : C b = true
        · exact zero b hb
        · rw [Bool.not_eq_true] at hb
          have h1 : side C (D.opp b) = !β := by rw [g.side_opp C hC, hb, Bool.xor_false, h]
          have h2 := ih (D.rank b) (by omega) b rfl b1 h1
          have h3 : L b = false := by
            by_contra k
            have := sub b (by simpa using k)
            rw [h] at this
            revert this
            cases β <;> simp
          rw [g.side_opp L hL, h3, Bool.xor_false] at h2
          exact h2
  by_cases hl : D.lf x = true
  · have h1 : side C (D.opp x) = !β := by rw [g.side_opp C hC, hx, Bool.xor_false, h]
    have h2 := key _ x rfl hl h1
    have h3 : L x = false := by
      by_contra k
      have := sub x (by simpa using k)
      rw [h] at this
      revert this
      cases β <;> simp
    rw [g.side_opp L hL, h3, Bool.xor_false] at h2
    exact h2
  · have h1 : D.lf (D.opp x) = true := by rw [g.lf_opp]; simpa using hl
    have := key _ (D.opp x) rfl h1 (by rw [g.opp_opp]; exact h)
    rwa [g.opp_opp] at this

/-- The edges which are in none of the contours. -/
def Darts.rem (D : Darts δ) (Cs : List (List δ)) (d : δ) : Bool := Cs.all fun C => !D.span C d

theorem Darts.rem_snoc {Cs : List (List δ)} {s : List δ} : D.rem (Cs ++ [s]) = fun d => D.rem Cs d && !D.span s d := by
  funext d
  unfold Darts.rem
  rw [List.all_append]
  simp

theorem Darts.rem_false {Cs : List (List δ)} {C : List δ} (hC : C ∈ Cs) {d : δ} (h : D.span C d = true) :
    D.rem Cs d = false := by
  unfold Darts.rem
  rw [List.all_eq_false]
  exact ⟨C, hC, by simp [h]⟩

/-- Contours cut out one after another, each one started at the first remaining dart. -/
inductive Peeled (D : Darts δ) (side : (δ → Bool) → δ → Bool) : List (List δ) → Prop
  | nil : Peeled D side []
  | snoc {Cs : List (List δ)} {e : δ} {s : List δ} : Peeled D side Cs → D.lf e = true → D.rem Cs e = true →
      (∀ x, D.rem Cs x = true → D.rank e ≤ D.rank x) → IsContour D side (D.rem Cs) e s → Peeled D side (Cs ++ [s])

/-- How the contours lie. -/
structure Nest (D : Darts δ) (side : (δ → Bool) → δ → Bool) (Cs : List (List δ)) : Prop where
  ev : D.Ev (D.rem Cs)
  cev : ∀ C ∈ Cs, D.Ev (D.span C)
  inside : ∀ C ∈ Cs, ∀ x ∈ C, side (D.span C) x = true ∧ side (D.span C) (D.opp x) = false
  zero : ∀ C ∈ Cs, ∀ L, D.Ev L → (∀ d, L d = true → D.rem Cs d = true) → ∀ c, D.span C c = true → side L c = false
  part : ∀ C ∈ Cs, D.Ev (fun d => D.rem Cs d && side (D.span C) d)
  const : Cs.Pairwise fun C C' => (∀ x, D.span C x = true → side (D.span C') x = false) ∧
    (∃ b, ∀ x, D.span C' x = true → side (D.span C) x = b) ∧ ∀ x, D.span C x = true → D.span C' x = false

/-- The edges inside a contour form an even set. -/
theorem Darts.Good.ev_inside (g : D.Good side) {U : δ → Bool} (hU : D.Ev U) {e : δ} {s : List δ}
    (h : IsContour D side U e s) (hlf : D.lf e = true) (hmin : ∀ x, U x = true → D.rank e ≤ D.rank x)
    (heU : U e = true) : D.Ev (fun d => (U d && !D.span s d) && side (D.span s) d) := by
  have hC := h.ev
  have sub := h.sub hU
  have hU' := hU.diff hC sub
  set U' : δ → Bool := fun d => U d && !D.span s d with hU'def
  have U'iff : ∀ d, U' d = true ↔ U d = true ∧ D.span s d = false := by
    intro d
    simp [hU'def]
  have sideU' : ∀ d, side U' d = (side U d ^^ side (D.span s) d) := g.side_diff hU hC sub
  -- on the contour both sides agree
  have hUe : side U e = true := by
    have h1 := g.start hU hlf hmin
    rw [g.side_opp U hU, heU] at h1
    revert h1
    cases side U e <;> simp
  have agree : ∀ c, D.span s c = true → side U c = side (D.span s) c := by
    have k1 : ∀ c ∈ s, side U c = true := fun c hc => by
      rw [(h.orb c hc).2 U hU (fun _ z => z)]; exact hUe
    intro c hc
    rcases D.span_iff.mp hc with k | k
    · rw [k1 c k, (h.inside g hU hlf hmin k).1]
    · have e1 := (h.inside g hU hlf hmin k).2
      have e2 := k1 _ k
      rw [g.opp_opp] at e1
      rw [g.side_opp U hU, sub c hc] at e2
      rw [e1]
      revert e2
      cases side U c <;> simp
  -- the darts which follow one another
  have step : ∀ d, U' d = true → side U' d = false →
      side (D.span s) (D.next U' d) = side (D.span s) d := by
    intro d hd hs
    obtain ⟨d1, d2⟩ := (U'iff d).mp hd
    have hz := g.next_mem d1
    have e1 := g.side_next hU (fun _ z => z) d1
    have e2 := g.side_next hC sub d1
    rw [g.side_opp U hU, d1] at e1
    rw [g.side_opp _ hC, d2, Bool.xor_false] at e2
    by_cases k : D.span s (D.next U d) = true
    · exfalso
      have := agree _ k
      rw [e1, e2] at this
      rw [sideU', ← this] at hs
      revert hs
      cases side U d <;> simp
    · rw [Bool.not_eq_true] at k
      rw [g.next_sub (fun d hd => ((U'iff d).mp hd).1) d1 ((U'iff _).mpr ⟨hz, k⟩)]
      exact e2
  have flip : ∀ d, U' d = true → side U' (D.next U' d) = !side U' d := by
    intro d hd
    rw [g.side_next hU' (fun _ z => z) hd, g.side_opp _ hU', hd]
    cases side U' d <;> rfl
  have surj : ∀ f, U' f = true → ∃ d, U' d = true ∧ D.next U' d = f := by
    let φ : {d // U' d = true} → {d // U' d = true} := fun d => ⟨D.next U' d.1, g.next_mem d.2⟩
    have : Function.Surjective φ := Finite.injective_iff_surjective.mp fun a b hab =>
      Subtype.ext (g.next_inj a.2 b.2 (congrArg Subtype.val hab))
    intro f hf
    obtain ⟨d, hd⟩ := this ⟨f, hf⟩
    exact ⟨d.1, d.2, congrArg Subtype.val hd⟩
  refine ⟨fun d => ?_, fun ρ => ?_⟩
  · show (U' (D.opp d) && side (D.span s) (D.opp d)) = (U' d && side (D.span s) d)
    rw [hU'.opp d]
    by_cases hd : U' d = true
    · rw [g.side_opp _ hC, ((U'iff d).mp hd).2, Bool.xor_false]
    · rw [Bool.not_eq_true] at hd
      rw [hd]; rfl
  · show ∑ d, z ((U' d && side (D.span s) d) && ρ (D.v d)) = 0
    have e0 : ∀ d, z ((U' d && side (D.span s) d) && ρ (D.v d)) =
        (if (U' d && side (D.span s) d && !side U' d) = true then z (ρ (D.v d)) else 0) +
        (if (U' d && side (D.span s) d && side U' d) = true then z (ρ (D.v d)) else 0) := by
      intro d
      cases U' d <;> cases side (D.span s) d <;> cases side U' d <;> cases ρ (D.v d) <;> decide
    rw [Finset.sum_congr rfl fun d _ => e0 d, Finset.sum_add_distrib, ← Finset.sum_filter, ← Finset.sum_filter]
    have : ∑ d with (U' d && side (D.span s) d && !side U' d) = true, z (ρ (D.v d)) =
        ∑ d with (U' d && side (D.span s) d && side U' d) = true, z (ρ (D.v d)) := by
      refine Finset.sum_bij (fun d _ => D.next U' d) ?_ ?_ ?_ ?_
      · intro d hd
        simp only [Finset.mem_filter, Finset.mem_univ, true_and, Bool.and_eq_true, Bool.not_eq_true'] at hd ⊢
        exact ⟨⟨g.next_mem hd.1.1, by rw [step d hd.1.1 hd.2]; exact hd.1.2⟩, by rw [flip d hd.1.1, hd.2]; rfl⟩
      · intro a ha b hb hab
        simp only [Finset.mem_filter, Finset.mem_univ, true_and, Bool.and_eq_true] at ha hb
        exact g.next_inj ha.1.1 hb.1.1 hab
      · intro f hf
        simp only [Finset.mem_filter, Finset.mem_univ, true_and, Bool.and_eq_true] at hf
        obtain ⟨d, d1, d2⟩ := surj f hf.1.1
        have hs : side U' d = false := by
          have := flip d d1
          rw [d2, hf.2] at this
          revert this
          cases side U' d <;> simp
        refine ⟨d, ?_, d2⟩
        simp only [Finset.mem_filter, Finset.mem_univ, true_and, Bool.and_eq_true, Bool.not_eq_true']
        exact ⟨⟨d1, by rw [← step d d1 hs, d2]; exact hf.1.2⟩, hs⟩
      · intro d hd
        simp only [Finset.mem_filter, Finset.mem_univ, true_and, Bool.and_eq_true] at hd
        rw [g.next_v hd.1.1]
    rw [this]
    exact two_zero _

theorem Peeled.nest (g : D.Good side) (hall : D.Ev fun _ => true) {Cs : List (List δ)} (h : Peeled D side Cs) :
    Nest D side Cs := by
  induction h with
  | nil =>
    refine ⟨?_, by simp, by simp, by simp, by simp, List.Pairwise.nil⟩
    have : D.rem ([] : List (List δ)) = fun _ => true := by funext d; rfl
    rw [this]; exact hall
  | @snoc Cs e s _ hlf he hmin hs ih =>
    have hev := hs.ev
    have sub := hs.sub ih.ev
    have ev' : D.Ev (D.rem (Cs ++ [s])) := by rw [D.rem_snoc]; exact ih.ev.diff hev sub
    have sub' : ∀ d, D.rem (Cs ++ [s]) d = true → D.rem Cs d = true := by
      intro d hd
      rw [D.rem_snoc] at hd
      simp only [Bool.and_eq_true] at hd
      exact hd.1
    have hes : e ∈ s := List.mem_of_mem_head? hs.head
    -- a contour found before does not cross the new one
    have const : ∀ C ∈ Cs, ∃ b, ∀ x, D.span s x = true → side (D.span C) x = b := by
      intro C hC
      have hCev := ih.cev C hC
      have hnot : ∀ d, D.rem Cs d = true → D.span C d = false := by
        intro d hd
        by_contra k
        rw [Bool.not_eq_false] at k
        rw [D.rem_false hC k] at hd
        exact absurd hd (by simp)
      set I : δ → Bool := fun d => D.rem Cs d && side (D.span C) d with hI
      have hIev : D.Ev I := ih.part C hC
      have hIsub : ∀ d, I d = true → D.rem Cs d = true := fun d hd => by
        rw [hI] at hd
        simp only [Bool.and_eq_true] at hd
        exact hd.1
      have hOev := ih.ev.diff hIev hIsub
      set O : δ → Bool := fun d => D.rem Cs d && !I d with hO
      have hOsub : ∀ d, O d = true → D.rem Cs d = true := fun d hd => by
        rw [hO] at hd
        simp only [Bool.and_eq_true] at hd
        exact hd.1
      have sideO : ∀ d, side O d = (side (D.rem Cs) d ^^ side I d) := g.side_diff ih.ev hIev hIsub
      have hUe : side (D.rem Cs) e = true := by
        have h1 := g.start ih.ev hlf hmin
        rw [g.side_opp _ ih.ev, he] at h1
        revert h1
        cases side (D.rem Cs) e <;> simp
      have same : ∀ d ∈ s, ∀ f ∈ s, side (D.span C) d = false → side (D.span C) f = true → False := by
        intro d hd f hf h0 h1
        have k1 : side I d = false := g.apart (β := true) hCev hIev (fun c hc => ih.zero C hC I hIev hIsub c hc)
          (fun x hx => by
            rw [hI] at hx
            simp only [Bool.and_eq_true] at hx
            exact hx.2) (hnot d (sub d (D.span_iff.mpr (Or.inl hd)))) h0
        have k2 : side O f = false := g.apart (β := false) hCev hOev (fun c hc => ih.zero C hC O hOev hOsub c hc)
          (fun x hx => by
            rw [hO, hI] at hx
            simp only [Bool.and_eq_true, Bool.not_eq_true', Bool.and_eq_false_iff] at hx
            rcases hx.2 with z | z
            · rw [hx.1] at z; exact absurd z (by simp)
            · exact z) (hnot f (sub f (D.span_iff.mpr (Or.inl hf)))) h1
        rw [(hs.orb d hd).2 I hIev hIsub] at k1
        rw [(hs.orb f hf).2 O hOev hOsub, sideO, hUe, k1] at k2
        exact absurd k2 (by simp)
      refine ⟨side (D.span C) e, fun x hx => ?_⟩
      have hx1 : ∀ y ∈ s, side (D.span C) y = side (D.span C) e := by
        intro y hy
        cases h1 : side (D.span C) y <;> cases h2 : side (D.span C) e
        · rfl
        · exact (same y hy e hes h1 h2).elim
        · exact (same e hes y hy h2 h1).elim
        · rfl
      rcases D.span_iff.mp hx with k | k
      · exact hx1 x k
      · have := hx1 _ k
        rw [g.side_opp _ hCev, hnot x (sub x hx), Bool.xor_false] at this
        exact this
    refine ⟨ev', ?_, ?_, ?_, ?_, ?_⟩
    · intro C hC
      rcases List.mem_append.mp hC with k | k
      · exact ih.cev C k
      · rw [List.mem_singleton] at k
        rw [k]; exact hev
    · intro C hC
      rcases List.mem_append.mp hC with k | k
      · exact ih.inside C k
      · rw [List.mem_singleton] at k
        subst k
        exact fun x hx => hs.inside g ih.ev hlf hmin hx
    · intro C hC L hL hLs c hc
      rcases List.mem_append.mp hC with k | k
      · exact ih.zero C k L hL (fun d hd => sub' d (hLs d hd)) c hc
      · rw [List.mem_singleton] at k
        subst k
        have hLU : ∀ d, L d = true → D.rem Cs d = true := fun d hd => sub' d (hLs d hd)
        have hLs0 : ∀ d, D.span C d = true → L d = false := by
          intro d hd
          by_contra k
          rw [Bool.not_eq_false] at k
          have := hLs d k
          rw [D.rem_snoc] at this
          simp [hd] at this
        have h1 := g.start hL hlf (fun x hx => hmin x (hLU x hx))
        rw [g.side_opp L hL, hLs0 e (D.span_iff.mpr (Or.inl hes)), Bool.xor_false] at h1
        rcases D.span_iff.mp hc with k | k
        · rw [(hs.orb c k).2 L hL hLU]; exact h1
        · have := (hs.orb _ k).2 L hL hLU
          rw [g.side_opp L hL, hLs0 c hc, Bool.xor_false] at this
          rw [this]; exact h1
    · intro C hC
      rw [D.rem_snoc]
      rcases List.mem_append.mp hC with k | k
      · obtain ⟨b, hb⟩ := const C k
        cases b with
        | true =>
          have e1 : (fun d => (D.rem Cs d && !D.span s d) && side (D.span C) d) =
              fun d => (D.rem Cs d && side (D.span C) d) && !D.span s d := by
            funext d
            cases D.rem Cs d <;> cases D.span s d <;> cases side (D.span C) d <;> rfl
          rw [e1]
          refine (ih.part C k).diff hev fun d hd => ?_
          simp only [Bool.and_eq_true]
          exact ⟨sub d hd, hb d hd⟩
        | false =>
          have e1 : (fun d => (D.rem Cs d && !D.span s d) && side (D.span C) d) =
              fun d => D.rem Cs d && side (D.span C) d := by
            funext d
            cases hd : D.span s d
            · simp
            · rw [hb d hd]; simp
          rw [e1]
          exact ih.part C k
      · rw [List.mem_singleton] at k
        subst k
        exact g.ev_inside ih.ev hs hlf hmin he
    · rw [List.pairwise_append]
      refine ⟨ih.const, List.pairwise_singleton _ _, fun C hC C' hC' => ?_⟩
      rw [List.mem_singleton] at hC'
      subst hC'
      refine ⟨fun x hx => ih.zero C hC _ hev sub x hx, const C hC, fun x hx => ?_⟩
      by_contra k
      rw [Bool.not_eq_false] at k
      have := sub x k
      rw [D.rem_false hC hx] at this
      exact absurd this (by simp)

end Rene.Face
