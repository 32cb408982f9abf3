import Verif.Lemmas.Face.Darts

/-! Walks along the faces of a plane graph, with the loops cut off. -/

namespace Rene.Face

variable {δ : Type} [Fintype δ] [DecidableEq δ] {D : Darts δ} {side : (δ → Bool) → δ → Bool}

/-- The edges of a list of darts. -/
def Darts.span (D : Darts δ) (l : List δ) (d : δ) : Bool := decide (d ∈ l) || decide (D.opp d ∈ l)

theorem Darts.span_iff {l : List δ} {d : δ} : D.span l d = true ↔ d ∈ l ∨ D.opp d ∈ l := by
  unfold Darts.span
  rw [Bool.or_eq_true, decide_eq_true_iff, decide_eq_true_iff]

theorem Darts.span_false {l : List δ} {d : δ} : D.span l d = false ↔ d ∉ l ∧ D.opp d ∉ l := by
  rw [← Bool.not_eq_true, D.span_iff, not_or]

/-- The edges of a closed walk without repetitions form an even set. -/
theorem Darts.Good.ev_span (g : D.Good side) {l : List δ} (nd : l.Nodup) (no : ∀ d ∈ l, D.opp d ∉ l)
    (closed : (l.map fun d => D.v (D.opp d)).Perm (l.map D.v)) : D.Ev (D.span l) := by
  refine ⟨fun d => ?_, fun ρ => ?_⟩
  · unfold Darts.span
    rw [g.opp_opp, Bool.or_comm]
  · have e1 : ∀ d, z (D.span l d && ρ (D.v d)) =
        z (decide (d ∈ l) && ρ (D.v d)) + z (decide (D.opp d ∈ l) && ρ (D.v d)) := by
      intro d
      unfold Darts.span
      by_cases h : d ∈ l
      · simp [h, no d h]
      · simp [h]
    rw [Finset.sum_congr rfl fun d _ => e1 d, Finset.sum_add_distrib]
    have e2 : ∑ d, z (decide (D.opp d ∈ l) && ρ (D.v d)) = ∑ d, z (decide (d ∈ l) && ρ (D.v (D.opp d))) := by
      refine Fintype.sum_equiv (Function.Involutive.toPerm D.opp g.opp_opp) _ _ fun d => ?_
      show _ = z (decide (D.opp d ∈ l) && ρ (D.v (D.opp (D.opp d))))
      rw [g.opp_opp]
    have e3 : ∀ f : δ → Bool, ∑ d, z (decide (d ∈ l) && f d) = (l.map fun d => z (f d)).sum := by
      intro f
      rw [← List.sum_toFinset _ nd]
      rw [← Finset.sum_subset (Finset.subset_univ l.toFinset)]
      · refine Finset.sum_congr rfl fun d hd => ?_
        rw [List.mem_toFinset] at hd
        simp [hd]
      · intro d _ hd
        rw [List.mem_toFinset] at hd
        simp [hd]
    rw [e2, e3 (fun d => ρ (D.v d)), e3 (fun d => ρ (D.v (D.opp d)))]
    have e4 : (l.map fun d => z (ρ (D.v (D.opp d)))).sum = (l.map fun d => z (ρ (D.v d))).sum := by
      have := (closed.map fun x => z (ρ x)).sum_eq
      rw [List.map_map, List.map_map] at this
      exact this
    rw [e4]
    exact two_zero _

/-- The ends of a walk. -/
theorem Darts.ends_eq {l : List δ} (h : l.IsChain fun a b => D.v b = D.v (D.opp a)) {d : δ}
    (hd : l.getLast? = some d) : l.map (fun x => D.v (D.opp x)) = l.tail.map D.v ++ [D.v (D.opp d)] := by
  induction l with
  | nil => simp at hd
  | cons a l ih =>
    cases l with
    | nil =>
      simp at hd
      simp [hd]
    | cons b l =>
      rw [List.isChain_cons_cons] at h
      rw [List.getLast?_cons_cons] at hd
      have := ih h.2 hd
      rw [List.map_cons, this, ← h.1]
      simp

/-- A closed walk ends where it starts. -/
theorem Darts.closed_perm {l : List δ} (h : l.IsChain fun a b => D.v b = D.v (D.opp a)) {a d : δ}
    (ha : l.head? = some a) (hd : l.getLast? = some d) (e : D.v (D.opp d) = D.v a) :
    (l.map fun x => D.v (D.opp x)).Perm (l.map D.v) := by
  rw [D.ends_eq h hd, e]
  cases l with
  | nil => simp at ha
  | cons b l =>
    simp only [List.head?_cons, Option.some.injEq] at ha
    subst ha
    rw [List.tail_cons, List.map_cons]
    exact List.perm_append_singleton _ _

/-- The step along a face. -/
noncomputable def Darts.phi (D : Darts δ) (U : δ → Bool) (d : δ) : δ := D.next U (D.opp d)

/-- The darts which no even set separates from `e`. -/
def Orb (D : Darts δ) (side : (δ → Bool) → δ → Bool) (U : δ → Bool) (e x : δ) : Prop :=
  U x = true ∧ ∀ L, D.Ev L → (∀ d, L d = true → U d = true) → side L x = side L e

section
variable {U : δ → Bool} {e : δ}

theorem Orb.phi (g : D.Good side) (hU : D.Ev U) {x : δ} (h : Orb D side U e x) : Orb D side U e (D.phi U x) := by
  have ho : U (D.opp x) = true := by rw [hU.opp]; exact h.1
  refine ⟨g.next_mem ho, fun L hL sub => ?_⟩
  unfold Darts.phi
  rw [g.side_next hL sub ho, g.opp_opp]
  exact h.2 L hL sub

theorem Orb.not_opp (g : D.Good side) (hU : D.Ev U) {x : δ} (h : Orb D side U e x) :
    ¬ Orb D side U e (D.opp x) := by
  intro k
  have h1 := h.2 U hU (fun _ z => z)
  have h2 := k.2 U hU (fun _ z => z)
  rw [g.side_opp U hU, h.1, h1] at h2
  revert h2
  cases side U e <;> simp

theorem phi_v (g : D.Good side) (hU : D.Ev U) {x : δ} (h : U x = true) : D.v (D.phi U x) = D.v (D.opp x) :=
  g.next_v (by rw [hU.opp]; exact h)

theorem phi_inj (g : D.Good side) (hU : D.Ev U) {x y : δ} (hx : U x = true) (hy : U y = true)
    (h : D.phi U x = D.phi U y) : x = y := by
  have := g.next_inj (by rw [hU.opp]; exact hx) (by rw [hU.opp]; exact hy) h
  rw [← g.opp_opp x, this, g.opp_opp]

/-- A chain of steps is a walk. -/
theorem chain_walk (g : D.Good side) (hU : D.Ev U) {l : List δ} (h : l.IsChain fun a b => b = D.phi U a)
    (hl : ∀ x ∈ l, U x = true) : l.IsChain fun a b => D.v b = D.v (D.opp a) := by
  induction l with
  | nil => exact List.IsChain.nil
  | cons a l ih =>
    cases l with
    | nil => exact List.IsChain.singleton _
    | cons b l =>
      rw [List.isChain_cons_cons] at h ⊢
      refine ⟨?_, ih h.2 fun x hx => hl x (List.mem_cons_of_mem _ hx)⟩
      rw [h.1]
      exact phi_v g hU (hl a (by simp))

theorem chain_next {l : List δ} (h : l.IsChain fun a b => b = D.phi U a) {a : δ} (ha : a ∈ l)
    (hn : l.getLast? ≠ some a) : D.phi U a ∈ l := by
  induction l with
  | nil => simp at ha
  | cons b l ih =>
    cases l with
    | nil =>
      simp at ha hn
      exact absurd ha.symm hn
    | cons d l =>
      rw [List.isChain_cons_cons] at h
      rw [List.getLast?_cons_cons] at hn
      rcases List.mem_cons.mp ha with rfl | k
      · rw [← h.1]; simp
      · exact List.mem_cons_of_mem _ (ih h.2 k hn)

/-- The walk along a face never comes back to the vertices of a loop, except for the one where it was closed. -/
theorem gone (g : D.Good side) (hU : D.Ev U) {l : List δ} {b last : δ} (hc : l.IsChain fun a b => b = D.phi U a)
    (nd : l.Nodup) (orb : ∀ x ∈ l, Orb D side U e x) (hb : l.head? = some b) (hl : l.getLast? = some last)
    (hcl : D.v (D.opp last) = D.v b) {a : δ} (ha : a ∈ l) (hab : D.v a ≠ D.v b) {x : δ} (hx : Orb D side U e x)
    (hxl : x ∉ l) : D.v (D.opp x) ≠ D.v a := by
  intro hv
  have no : ∀ d ∈ l, D.opp d ∉ l := fun d hd k => (orb d hd).not_opp g hU (orb _ k)
  have hw := chain_walk g hU hc (fun y hy => (orb y hy).1)
  have hL : D.Ev (D.span l) := g.ev_span nd no (Darts.closed_perm hw hb hl hcl)
  have sub : ∀ d, D.span l d = true → U d = true := by
    intro d hd
    rcases D.span_iff.mp hd with k | k
    · exact (orb d k).1
    · rw [← hU.opp]; exact (orb _ k).1
  have val : ∀ y ∈ l, side (D.span l) y = side (D.span l) e := fun y hy => (orb y hy).2 _ hL sub
  have after : ∀ y ∈ l, side (D.span l) (D.opp y) = !side (D.span l) e := by
    intro y hy
    rw [g.side_opp _ hL, val y hy, D.span_iff.mpr (Or.inl hy)]
    cases side (D.span l) e <;> rfl
  -- along the darts around the vertex
  have key : ∀ m, side (D.span l) (D.opp (D.nx^[m] a)) = (!side (D.span l) e) ∨
      ∃ y ∈ l, D.v (D.opp y) = D.v a ∧ ∃ j, D.nx^[m] a = D.nx^[j] (D.opp y) ∧
        ∀ i < j, U (D.nx^[i + 1] (D.opp y)) = false := by
    intro m
    induction m with
    | zero => exact Or.inl (after a ha)
    | succ m ih =>
      have hv' : D.v (D.nx^[m + 1] a) = D.v a := g.iter_v a _
      rcases ih with k | ⟨y, y1, y2, j, y3, y4⟩
      · have hs : side (D.span l) (D.nx^[m + 1] a) = !side (D.span l) e := by
          rw [Function.iterate_succ_apply', g.side_nx _ hL, k]
        by_cases hm : D.span l (D.nx^[m + 1] a) = true
        · rcases D.span_iff.mp hm with z | z
          · rw [val _ z] at hs
            revert hs
            cases side (D.span l) e <;> simp
          · exact Or.inr ⟨_, z, by rw [g.opp_opp]; exact hv', 0, by rw [g.opp_opp]; rfl, by simp⟩
        · left
          rw [g.side_opp _ hL, hs, Bool.not_eq_true _ |>.mp hm, Bool.xor_false]
      · have e1 : D.nx^[m + 1] a = D.nx^[j + 1] (D.opp y) := by
          rw [Function.iterate_succ_apply', Function.iterate_succ_apply', y3]
        by_cases hUu : U (D.nx^[m + 1] a) = true
        · left
          have : D.phi U y = D.nx^[m + 1] a := by
            unfold Darts.phi
            rw [e1]
            rw [e1] at hUu
            exact Darts.next_eq hUu y4
          refine after _ ?_
          rw [← this]
          refine chain_next hc y1 fun z => ?_
          rw [hl, Option.some.injEq] at z
          rw [← z, hcl] at y2
          exact hab y2.symm
        · right
          refine ⟨y, y1, y2, j + 1, e1, fun i hi => ?_⟩
          rcases Nat.lt_succ_iff_lt_or_eq.mp hi with z | rfl
          · exact y4 i z
          · rw [← e1]; simpa using hUu
  have hox : D.opp x ∉ l := fun k => hx.not_opp g hU (orb _ k)
  obtain ⟨m, hm⟩ := g.nx_trans a (D.opp x) hv.symm
  cases m with
  | zero => exact hox (by rw [← hm]; exact ha)
  | succ m =>
    have hsp : D.span l (D.opp x) = false := D.span_false.mpr ⟨hox, by rw [g.opp_opp]; exact hxl⟩
    have hsx : side (D.span l) (D.opp x) = side (D.span l) e := by
      have := hL.opp x
      rw [g.side_opp _ hL, ← this, hsp, Bool.xor_false]
      exact hx.2 _ hL sub
    rcases key m with k | ⟨y, y1, y2, j, y3, y4⟩
    · have : side (D.span l) (D.opp x) = !side (D.span l) e := by
        rw [← hm, Function.iterate_succ_apply', g.side_nx _ hL, k]
      rw [hsx] at this
      revert this
      cases side (D.span l) e <;> simp
    · have e1 : D.opp x = D.nx^[j + 1] (D.opp y) := by
        rw [← hm, Function.iterate_succ_apply', Function.iterate_succ_apply', y3]
      have hUx : U (D.opp x) = true := by rw [hU.opp]; exact hx.1
      refine hox ?_
      have : D.phi U y = D.opp x := by
        unfold Darts.phi
        rw [e1]
        rw [e1] at hUx
        exact Darts.next_eq hUx y4
      rw [← this]
      refine chain_next hc y1 fun z => ?_
      rw [hl, Option.some.injEq] at z
      rw [← z, hcl] at y2
      exact hab y2.symm

/-- The walk `W` along a face and the contour `s` left of it after its loops were cut off. -/
structure WalkInv (D : Darts δ) (side : (δ → Bool) → δ → Bool) (U : δ → Bool) (e : δ) (W s : List δ) : Prop where
  chain : W.IsChain fun a b => b = D.phi U a
  head : W.head? = some e
  nd : W.Nodup
  orb : ∀ x ∈ W, Orb D side U e x
  sub : s.Sublist W
  shead : s.head? = some e
  last : s.getLast? = W.getLast?
  walk : s.IsChain fun a b => D.v b = D.v (D.opp a)
  vnd : (s.map D.v).Nodup
  rem : ∀ d ∈ W, D.v d ∉ s.map D.v → ∀ x, Orb D side U e x → (x ∉ W ∨ W.getLast? = some x) →
    D.v (D.opp x) ≠ D.v d

theorem Orb.refl (h : U e = true) : Orb D side U e e := ⟨h, fun _ _ _ => rfl⟩

theorem WalkInv.start (h : U e = true) : WalkInv D side U e [e] [e] := by
  refine ⟨List.IsChain.singleton _, rfl, by simp, ?_, List.Sublist.refl _, rfl, rfl, List.IsChain.singleton _, by simp, ?_⟩
  · intro x hx
    rw [List.mem_singleton] at hx
    rw [hx]; exact Orb.refl h
  · intro d hd k
    rw [List.mem_singleton] at hd
    subst hd
    simp at k

theorem isChain_concat {α : Type} {R : α → α → Prop} {l : List α} {a x : α} (h : l.IsChain R)
    (ha : l.getLast? = some a) (hx : R a x) : (l ++ [x]).IsChain R := by
  rw [List.isChain_append]
  refine ⟨h, List.IsChain.singleton _, fun y hy w hw => ?_⟩
  rw [ha] at hy
  simp at hy hw
  subst hy hw
  exact hx

theorem WalkInv.new (g : D.Good side) (hU : D.Ev U) {W s : List δ} (h : WalkInv D side U e W s) {last : δ}
    (hl : W.getLast? = some last) (hne : D.v (D.opp last) ≠ D.v e) : D.phi U last ∉ W := by
  have ml : last ∈ W := List.mem_of_getLast? hl
  have Ul := (h.orb last ml).1
  intro k
  -- a predecessor in the walk
  have pred : ∀ {l : List δ} {f : δ}, l.IsChain (fun a b => b = D.phi U a) → f ∈ l → l.head? ≠ some f →
      ∃ y ∈ l.dropLast, D.phi U y = f := by
    intro l f hc hf hh
    induction l with
    | nil => simp at hf
    | cons a l ih =>
      cases l with
      | nil =>
        simp at hf hh
        exact absurd hf.symm hh
      | cons b l =>
        rw [List.isChain_cons_cons] at hc
        rcases List.mem_cons.mp hf with rfl | hf
        · simp at hh
        · by_cases hb : b = f
          · exact ⟨a, by simp, by rw [← hc.1, hb]⟩
          · obtain ⟨y, y1, y2⟩ := ih hc.2 hf (by simpa using hb)
            exact ⟨y, by rw [List.dropLast_cons_of_ne_nil (by simp)]; exact List.mem_cons_of_mem _ y1, y2⟩
  by_cases hh : W.head? = some (D.phi U last)
  · rw [h.head, Option.some.injEq] at hh
    apply hne
    rw [hh, phi_v g hU Ul]
  · obtain ⟨y, y1, y2⟩ := pred h.chain k hh
    have my := List.mem_of_mem_dropLast y1
    have := phi_inj g hU (h.orb y my).1 Ul y2
    subst this
    -- the last one does not occur before
    obtain ⟨W', rfl⟩ : ∃ W', W = W' ++ [y] := by
      rcases List.eq_nil_or_concat' W with rfl | ⟨W', b, rfl⟩
      · simp at hl
      · rw [List.getLast?_concat, Option.some.injEq] at hl
        subst hl; exact ⟨W', rfl⟩
    rw [List.dropLast_concat] at y1
    have := h.nd
    rw [List.nodup_append] at this
    exact this.2.2 y y1 y (by simp) rfl

theorem WalkInv.push (g : D.Good side) (hU : D.Ev U) {W s : List δ} (h : WalkInv D side U e W s) {last : δ}
    (hl : s.getLast? = some last) (hne : D.v (D.opp last) ∉ s.map D.v) :
    WalkInv D side U e (W ++ [D.phi U last]) (s ++ [D.phi U last]) := by
  have hl' : W.getLast? = some last := by rw [← h.last]; exact hl
  have ml : last ∈ W := List.mem_of_getLast? hl'
  have Ul := h.orb last ml
  have hv := phi_v g hU Ul.1
  have he : D.v (D.opp last) ≠ D.v e := fun k => hne (by rw [k]; exact List.mem_map_of_mem (List.mem_of_mem_head? h.shead))
  have new := h.new g hU hl' he
  refine ⟨isChain_concat h.chain hl' rfl, by rw [List.head?_append, h.head]; rfl, ?_, ?_, h.sub.append (List.Sublist.refl _),
    by rw [List.head?_append, h.shead]; rfl, by simp, isChain_concat h.walk hl hv, ?_, ?_⟩
  · rw [List.nodup_append]
    refine ⟨h.nd, by simp, fun x hx y hy => ?_⟩
    rw [List.mem_singleton] at hy
    subst hy
    rintro rfl
    exact new hx
  · intro x hx
    rcases List.mem_append.mp hx with k | k
    · exact h.orb x k
    · rw [List.mem_singleton] at k
      rw [k]; exact Ul.phi g hU
  · rw [List.map_append, List.nodup_append]
    refine ⟨h.vnd, by simp, fun x hx y hy => ?_⟩
    simp only [List.map_cons, List.map_nil, List.mem_singleton] at hy
    subst hy
    rintro rfl
    rw [hv] at hx
    exact hne hx
  · intro d hd hdv x hx hxW
    have hxW' : x ∉ W := by
      rcases hxW with k | k
      · exact fun z => k (by simp [z])
      · rw [List.getLast?_concat, Option.some.injEq] at k
        rw [← k]; exact new
    rcases List.mem_append.mp hd with k | k
    · exact h.rem d k (fun z => hdv (by rw [List.map_append]; exact List.mem_append_left _ z)) x hx (Or.inl hxW')
    · rw [List.mem_singleton] at k
      subst k
      exact absurd (by simp) hdv

theorem WalkInv.cut (g : D.Good side) (hU : D.Ev U) {W s1 s2 : List δ} {b : δ}
    (h : WalkInv D side U e W (s1 ++ b :: s2)) {last : δ} (hl : (s1 ++ b :: s2).getLast? = some last)
    (hb : D.v (D.opp last) = D.v b) (hne : D.v b ≠ D.v e) :
    WalkInv D side U e (W ++ [D.phi U last]) (s1 ++ [D.phi U last]) := by
  have hl' : W.getLast? = some last := by rw [← h.last]; exact hl
  have ml : last ∈ W := List.mem_of_getLast? hl'
  have Ul := h.orb last ml
  have hv := phi_v g hU Ul.1
  have new := h.new g hU hl' (by rw [hb]; exact hne)
  have hs1 : s1 ≠ [] := by
    rintro rfl
    have := h.shead
    simp at this
    exact hne (by rw [this])
  obtain ⟨a, s0, rfl⟩ : ∃ a s0, s1 = s0 ++ [a] := by
    rcases List.eq_nil_or_concat' s1 with k | ⟨s0, a, k⟩
    · exact absurd k hs1
    · exact ⟨a, s0, k⟩
  -- the end of the walk which starts at `b`
  obtain ⟨W1, W2, hW, hs2⟩ : ∃ W1 W2, W = W1 ++ b :: W2 ∧ s2.Sublist W2 := by
    have hsub := h.sub
    rw [List.append_sublist_iff] at hsub
    obtain ⟨r1, r2, rfl, _, k2⟩ := hsub
    rw [List.cons_sublist_iff] at k2
    obtain ⟨q1, q2, rfl, k3, k4⟩ := k2
    obtain ⟨u1, u2, rfl⟩ := List.append_of_mem k3
    exact ⟨r1 ++ u1, u2 ++ q2, by simp, k4.trans (List.sublist_append_right _ _)⟩
  have hch : (b :: W2).IsChain fun a b => b = D.phi U a := by
    have := h.chain
    rw [hW, List.isChain_append] at this
    exact this.2.1
  have hlast2 : (b :: W2).getLast? = some last := by
    rw [hW, List.getLast?_append_of_ne_nil _ (by simp)] at hl'
    exact hl'
  have hnd2 : (b :: W2).Nodup := by
    have := h.nd
    rw [hW, List.nodup_append] at this
    exact this.2.1
  have mem2 : ∀ x ∈ b :: W2, x ∈ W := fun x hx => by rw [hW]; exact List.mem_append_right _ hx
  have vnd := h.vnd
  rw [List.map_append, List.map_cons, List.nodup_append] at vnd
  refine ⟨isChain_concat h.chain hl' rfl, by rw [List.head?_append, h.head]; rfl, ?_, ?_, ?_, ?_, by simp, ?_, ?_, ?_⟩
  · rw [List.nodup_append]
    refine ⟨h.nd, by simp, fun x hx y hy => ?_⟩
    rw [List.mem_singleton] at hy
    subst hy
    rintro rfl
    exact new hx
  · intro x hx
    rcases List.mem_append.mp hx with k | k
    · exact h.orb x k
    · rw [List.mem_singleton] at k
      rw [k]; exact Ul.phi g hU
  · exact ((List.sublist_append_left _ _).trans h.sub).append (List.Sublist.refl _)
  · have := h.shead
    rw [List.append_assoc, List.head?_append] at this
    rw [List.append_assoc, List.head?_append]
    cases s0 with
    | nil => simpa using this
    | cons y s0 => simpa using this
  · have k := h.walk
    rw [List.isChain_append] at k
    refine isChain_concat k.1 (a := a) (by simp) ?_
    rw [hv, hb]
    exact k.2.2 a (by simp) b (by simp)
  · rw [List.map_append, List.nodup_append]
    refine ⟨vnd.1, by simp, fun x hx y hy => ?_⟩
    simp only [List.map_cons, List.map_nil, List.mem_singleton] at hy
    subst hy
    rw [hv, hb]
    exact vnd.2.2 x hx (D.v b) (by simp)
  · intro d hd hdv x hx hxW
    have hxW' : x ∉ W := by
      rcases hxW with k | k
      · exact fun z => k (by simp [z])
      · rw [List.getLast?_concat, Option.some.injEq] at k
        rw [← k]; exact new
    rw [List.map_append, List.mem_append, not_or] at hdv
    obtain ⟨d1, d2⟩ := hdv
    simp only [List.map_cons, List.map_nil, List.mem_singleton] at d2
    rw [hv, hb] at d2
    have hd' : d ∈ W := by
      rcases List.mem_append.mp hd with k | k
      · exact k
      · rw [List.mem_singleton] at k
        subst k
        exact absurd (hv.trans hb) d2
    by_cases hds : D.v d ∈ (s0 ++ [a] ++ b :: s2).map D.v
    · rw [List.map_append, List.mem_append, List.map_cons, List.mem_cons] at hds
      rcases hds with k | k | k
      · exact absurd k d1
      · exact absurd k d2
      · obtain ⟨f, f1, f2⟩ := List.mem_map.mp k
        have := gone g hU hch hnd2 (fun y hy => h.orb y (mem2 y hy)) (by simp) hlast2 hb
          (List.mem_cons_of_mem _ (hs2.subset f1)) (by rw [f2]; exact d2) hx (fun z => hxW' (mem2 x z))
        rw [f2] at this
        exact this
    · exact h.rem d hd' hds x hx (Or.inl hxW')

/-- A finished contour. -/
structure IsContour (D : Darts δ) (side : (δ → Bool) → δ → Bool) (U : δ → Bool) (e : δ) (s : List δ) : Prop where
  orb : ∀ x ∈ s, Orb D side U e x
  head : s.head? = some e
  walk : s.IsChain fun a b => D.v b = D.v (D.opp a)
  vnd : (s.map D.v).Nodup
  closed : ∀ x, s.getLast? = some x → D.v (D.opp x) = D.v e
  ev : D.Ev (D.span s)
  no : ∀ d ∈ s, D.opp d ∉ s
  len : 3 ≤ s.length

theorem WalkInv.final (g : D.Good side) (hU : D.Ev U) {W s : List δ} (h : WalkInv D side U e W s) {last : δ}
    (hl : s.getLast? = some last) (he : D.v (D.opp last) = D.v e) : IsContour D side U e s := by
  have orb : ∀ x ∈ s, Orb D side U e x := fun x hx => h.orb x (h.sub.subset hx)
  have no : ∀ d ∈ s, D.opp d ∉ s := fun d hd k => (orb d hd).not_opp g hU (orb _ k)
  refine ⟨orb, h.shead, h.walk, h.vnd, ?_, g.ev_span (List.Nodup.of_map _ h.vnd) no
    (Darts.closed_perm h.walk h.shead hl he), no, ?_⟩
  · intro x hx
    rw [hl, Option.some.injEq] at hx
    rw [← hx]; exact he
  · have hs := h.shead
    have hw := h.walk
    rcases s with _ | ⟨a, _ | ⟨b, _ | ⟨d, s⟩⟩⟩
    · simp at hs
    · simp at hs hl
      subst hs hl
      exact absurd he (g.ne _)
    · simp at hs hl
      subst hs hl
      rw [List.isChain_cons_cons] at hw
      have := g.simple b (D.opp a) hw.1 (by rw [g.opp_opp]; exact he)
      exact absurd (by rw [← this]; simp) (no a (by simp))
    · simp

theorem IsContour.sub {s : List δ} (h : IsContour D side U e s) (hU : D.Ev U) (d : δ) (hd : D.span s d = true) :
    U d = true := by
  rcases D.span_iff.mp hd with k | k
  · exact (h.orb d k).1
  · rw [← hU.opp]; exact (h.orb _ k).1

/-- The contour started at the first dart has its inside on the left. -/
theorem IsContour.inside (g : D.Good side) (hU : D.Ev U) {s : List δ} (h : IsContour D side U e s) (hlf : D.lf e = true)
    (hmin : ∀ x, U x = true → D.rank e ≤ D.rank x) {x : δ} (hx : x ∈ s) :
    side (D.span s) x = true ∧ side (D.span s) (D.opp x) = false := by
  have he : e ∈ s := List.mem_of_mem_head? h.head
  have h1 := g.start h.ev hlf (fun x hx => hmin x (h.sub hU x hx))
  have h2 : side (D.span s) e = true := by
    rw [g.side_opp _ h.ev, D.span_iff.mpr (Or.inl he)] at h1
    revert h1
    cases side (D.span s) e <;> simp
  have h3 := (h.orb x hx).2 _ h.ev (h.sub hU)
  rw [h2] at h3
  refine ⟨h3, ?_⟩
  rw [g.side_opp _ h.ev, h3, D.span_iff.mpr (Or.inl hx)]
  rfl

end

end Rene.Face
