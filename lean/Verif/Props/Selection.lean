import Verif.Model.Selection
import Verif.Props.Solution
import Verif.Lemmas.Composition
import Verif.Lemmas.ES
import Mathlib.Data.List.Perm.Subperm
import Mathlib.Data.List.Permutation

/-!
# Properties of the random selections and filters: C88 – C90
-/

set_option autoImplicit false
set_option linter.unusedSectionVars false

namespace Suprb

open Spec

variable {K : Type} [Field K] [LinearOrder K] [IsStrictOrderedRing K] {d : Nat} {M : Type}

/-! ### Drawing from lists -/

theorem filterMap_get_length {α : Type} (a : List α) (idx : List Nat) (h : ∀ i ∈ idx, i < a.length) : (idx.filterMap fun i => a[i]?).length = idx.length := by
  induction idx with
  | nil => rfl
  | cons i rest ih =>
    rw [List.filterMap_cons, List.getElem?_eq_getElem (h i (List.mem_cons_self ..))]
    simp [ih fun j hj => h j (List.mem_cons_of_mem _ hj)]

theorem mem_filterMap_get {α : Type} (a : List α) (idx : List Nat) (x : α) (hx : x ∈ idx.filterMap fun i => a[i]?) : ∃ i ∈ idx, a[i]? = some x := by
  obtain ⟨i, hi, h⟩ := List.mem_filterMap.mp hx
  exact ⟨i, hi, h⟩

/-- Drawing distinct positions is drawing from some part of the list. -/
theorem filterMap_get_subperm {α : Type} (a : List α) (idx : List Nat) (hn : idx.Nodup) (h : ∀ i ∈ idx, i < a.length) :
    List.Subperm (idx.filterMap fun i => a[i]?) a := by
  have h1 : List.Subperm idx (List.range a.length) := hn.subperm fun i hi => List.mem_range.mpr (h i hi)
  have h2 : ((List.range a.length).filterMap fun i => a[i]?) = a := by
    refine List.ext_getElem? fun k => ?_
    have : ((List.range a.length).filterMap fun i => a[i]?) = (List.range a.length).pmap (fun i hi => a[i]'hi) (fun i hi => List.mem_range.mp hi) := by
      rw [List.filterMap_congr (g := fun i => a[i]?) (fun _ _ => rfl)]
      have : ∀ (l : List Nat) (hl : ∀ i ∈ l, i < a.length), (l.filterMap fun i => a[i]?) = l.pmap (fun i hi => a[i]'hi) hl := by
        intro l
        induction l with
        | nil => intro _; rfl
        | cons i rest ih =>
          intro hl
          rw [List.filterMap_cons, List.getElem?_eq_getElem (hl i (List.mem_cons_self ..))]
          simp [ih fun j hj => hl j (List.mem_cons_of_mem _ hj)]
      exact this _ _
    rw [this]
    by_cases hk : k < a.length
    · rw [List.getElem?_eq_getElem (by simpa using hk), List.getElem?_eq_getElem hk]
      simp
    · rw [List.getElem?_eq_none_iff.mpr (by simpa using hk), List.getElem?_eq_none_iff.mpr (by omega)]
  rw [← h2]
  obtain ⟨l, hl1, hl2⟩ := h1
  rw [h2]
  refine ⟨l.filterMap fun i => a[i]?, hl1.filterMap _, ?_⟩
  have := hl2.filterMap fun i => a[i]?
  rwa [h2] at this

theorem npChoice_uniform {α : Type} (a : List α) (replace : Bool) (size : Nat) (idx : List Nat) (hne : a ≠ []) (hs : replace = false → size ≤ a.length)
    (hd : ChoiceOk (K := K) a.length none replace size idx) :
    ∃ out, npChoice (K := K) a none replace size idx = .ok out ∧ out.length = size ∧ (∀ x ∈ out, x ∈ a) ∧ (replace = false → List.Subperm out a) := by
  obtain ⟨h1, h2, h3⟩ := hd
  have hlt : ∀ i ∈ idx, i < a.length := fun i hi => (h2 i hi).1
  have hl : a.length ≠ 0 := fun h => hne (List.length_eq_zero_iff.mp h)
  refine ⟨_, ?_, (filterMap_get_length a idx hlt).trans h1, fun x hx => ?_, fun hr => filterMap_get_subperm a idx (h3 hr) hlt⟩
  · unfold npChoice
    rw [if_neg (by tauto), if_neg]
    rintro ⟨hr, h⟩
    have := hs hr
    omega
  · obtain ⟨i, _, h⟩ := mem_filterMap_get a idx x hx
    exact List.mem_of_getElem? h

theorem npChoice_weighted {α : Type} (a : List α) (p : List K) (replace : Bool) (size : Nat) (idx : List Nat) (hne : a ≠ []) (hp : p.length = a.length) (hp0 : ∀ q ∈ p, 0 ≤ q)
    (hp1 : p.sum = 1) (hs : replace = false → size ≤ a.length ∧ size ≤ (p.filter fun q => decide (q ≠ 0)).length)
    (hd : ChoiceOk a.length (some p) replace size idx) :
    ∃ out, npChoice a (some p) replace size idx = .ok out ∧ out.length = size ∧ (∀ x ∈ out, ∃ i : Nat, a[i]? = some x ∧ p.getD i 0 ≠ 0) ∧
      (replace = false → List.Subperm out a) := by
  obtain ⟨h1, h2, h3⟩ := hd
  have hlt : ∀ i ∈ idx, i < a.length := fun i hi => (h2 i hi).1
  have hl : a.length ≠ 0 := fun h => hne (List.length_eq_zero_iff.mp h)
  refine ⟨_, ?_, (filterMap_get_length a idx hlt).trans h1, fun x hx => ?_, fun hr => filterMap_get_subperm a idx (h3 hr) hlt⟩
  · unfold npChoice
    rw [if_neg (by tauto)]
    dsimp only
    rw [if_neg, if_neg]
    · rintro ⟨hr, h⟩
      obtain ⟨g1, g2⟩ := hs hr
      omega
    · rintro (h | ⟨q, hq, h⟩ | h)
      · exact h hp
      · exact absurd (hp0 q hq) (not_le.mpr h)
      · exact h hp1
  · obtain ⟨i, hi, h⟩ := mem_filterMap_get a idx x hx
    exact ⟨i, h, (h2 i hi).2 p rfl⟩

theorem sum_map_div (l : List K) (c : K) : (l.map (· / c)).sum = l.sum / c := by
  induction l with
  | nil => simp
  | cons a as ih => simp [ih, add_div]

theorem rouletteP_spec (fs : List K) (h0 : ∀ f ∈ fs, 0 ≤ f) (h1 : ∃ f ∈ fs, 0 < f) :
    0 < fs.sum ∧ rouletteP fs = .ok (fs.map (· / fs.sum)) ∧ (fs.map (· / fs.sum)).sum = 1 ∧ ∀ q ∈ fs.map (· / fs.sum), 0 ≤ q := by
  obtain ⟨f, hf, hpos⟩ := h1
  have hs : 0 < fs.sum := lt_of_lt_of_le hpos (List.single_le_sum h0 _ hf)
  refine ⟨hs, by unfold rouletteP; rw [if_neg hs.ne'], by rw [sum_map_div, div_self hs.ne'], fun q hq => ?_⟩
  obtain ⟨x, hx, rfl⟩ := List.mem_map.mp hq
  exact div_nonneg (h0 x hx) hs.le

/-! ### C88 rule selection -/

/-- A rule with the given finite fitness. -/
def Rule.HasFitness (ρ : Rule K d M) (f : K) : Prop := ∃ s, ρ.st = some s ∧ s.fitness = ((f : K) : WithBot K)

theorem Rule.HasFitness.of {ρ : Rule K d M} {f : K} (h : ρ.HasFitness f) : ρ.st.isSome = true ∧ ruleFitnessOf ρ = ((f : K) : WithBot K) := by
  obtain ⟨s, h1, h2⟩ := h
  exact ⟨by rw [h1]; rfl, by unfold ruleFitnessOf; rw [h1, ← h2]; rfl⟩

/-- C88: random selection returns as many members of the list as requested. -/
theorem C88_random (rules : List (Rule K d M)) (hne : rules ≠ []) (size : Nat) (idx : List Nat) (hd : ChoiceOk (K := K) rules.length none true size idx) :
    ∃ out, ruleRandom rules size idx = .ok out ∧ out.length = size ∧ ∀ ρ ∈ out, ρ ∈ rules := by
  obtain ⟨out, h1, h2, h3, _⟩ := npChoice_uniform (K := K) rules true size idx hne (by simp) hd
  exact ⟨out, h1, h2, h3⟩

/-- C88: selecting the fittest returns as many members of the list as requested (all, if there are fewer), best first, and no rule left out is fitter than one returned. -/
theorem C88_fittest (rules : List (Rule K d M)) (hst : ∀ ρ ∈ rules, ρ.st.isSome) (size : Nat) :
    ∃ out left, ruleFittest rules size = .ok out ∧ out.length = min size rules.length ∧ (out ++ left).Perm rules ∧
      out.Pairwise (fun ρ τ => τ.fit0 ≤ ρ.fit0) ∧ ∀ ρ ∈ out, ∀ τ ∈ left, τ.fit0 ≤ ρ.fit0 := by
  have hall : rules.all (fun ρ => ρ.st.isSome) = true := List.all_eq_true.mpr hst
  have hpw := sortedDesc_pairwise (fun ρ : Rule K d M => ruleFitnessOf ρ) rules
  have hp := sortedDesc_perm (fun ρ : Rule K d M => ruleFitnessOf ρ) rules
  refine ⟨(sortedDesc ruleFitnessOf rules).take size, (sortedDesc ruleFitnessOf rules).drop size, by unfold ruleFittest fittest; rw [if_pos hall], ?_, ?_, ?_, ?_⟩
  · rw [List.length_take, hp.length_eq]
  · rw [List.take_append_drop]; exact hp
  · exact hpw.sublist (List.take_sublist _ _)
  · rw [← List.take_append_drop size (sortedDesc (fun ρ : Rule K d M => ruleFitnessOf ρ) rules)] at hpw
    exact fun ρ h τ h' => (List.pairwise_append.mp hpw).2.2 ρ h τ h'

theorem searchCdf_spec (p : List K) (hp : ∀ q ∈ p, 0 ≤ q) (u : K) (h0 : 0 ≤ u) (h1 : u < p.sum) :
    ∃ pre q post, p = pre ++ q :: post ∧ searchCdf p u = pre.length ∧ pre.sum ≤ u ∧ u < pre.sum + q := by
  induction p generalizing u with
  | nil => simp at h1; exact absurd h0 (not_le.mpr h1)
  | cons a rest ih =>
    unfold searchCdf
    by_cases ha : a ≤ u
    · rw [if_pos ha]
      rw [List.sum_cons] at h1
      obtain ⟨pre, q, post, e1, e2, e3, e4⟩ := ih (fun q hq => hp q (List.mem_cons_of_mem _ hq)) (u - a) (by linarith) (by linarith)
      exact ⟨a :: pre, q, post, by rw [e1]; rfl, by rw [e2]; rfl, by rw [List.sum_cons]; linarith, by rw [List.sum_cons]; linarith⟩
    · rw [if_neg ha]
      exact ⟨[], a, rest, rfl, rfl, by simpa using h0, by simpa using not_le.mp ha⟩

/-- Sum of the finite fitness values of the rules. -/
def fitnessSum (fits : Rule K d M → Option K) (rules : List (Rule K d M)) : K := (rules.filterMap fits).sum

/-- Splitting the list of finite values splits the list of rules. -/
theorem split_filterMap {α β : Type} (f : α → Option β) (l : List α) (pre : List β) (b : β) (post : List β) (h : l.filterMap f = pre ++ b :: post) :
    ∃ l1 a l2, l = l1 ++ a :: l2 ∧ l1.filterMap f = pre ∧ f a = some b := by
  induction l generalizing pre with
  | nil => simp at h
  | cons x rest ih =>
    cases hx : f x with
    | none =>
      rw [List.filterMap_cons_none hx] at h
      obtain ⟨l1, a, l2, e1, e2, e3⟩ := ih pre h
      exact ⟨x :: l1, a, l2, by rw [e1]; rfl, by rw [List.filterMap_cons_none hx, e2], e3⟩
    | some v =>
      rw [List.filterMap_cons_some hx] at h
      cases pre with
      | nil =>
        simp only [List.nil_append, List.cons.injEq] at h
        exact ⟨[], x, rest, rfl, rfl, by rw [hx, h.1]⟩
      | cons w pre =>
        simp only [List.cons_append, List.cons.injEq] at h
        obtain ⟨l1, a, l2, e1, e2, e3⟩ := ih pre h.2
        exact ⟨x :: l1, a, l2, by rw [e1]; rfl, by rw [List.filterMap_cons_some hx, e2, h.1], e3⟩

theorem filterMap_total {α β : Type} (f : α → Option β) (l : List α) (h : ∀ a ∈ l, ∃ b, f a = some b) :
    (l.filterMap f).length = l.length ∧ ∀ (k : Nat) a, l[k]? = some a → (l.filterMap f)[k]? = f a := by
  induction l with
  | nil => simp
  | cons a rest ih =>
    obtain ⟨b, hb⟩ := h a (List.mem_cons_self ..)
    obtain ⟨i1, i2⟩ := ih fun x hx => h x (List.mem_cons_of_mem _ hx)
    rw [List.filterMap_cons_some hb]
    refine ⟨by simp [i1], fun k x hx => ?_⟩
    cases k with
    | zero => simp at hx ⊢; rw [← hx, hb]
    | succ k => simp at hx ⊢; exact i2 k x hx

/-- C88 (partial): let every fitness be `-inf` or not negative. If some fitness is positive, roulette wheel selection returns as many members of the list as requested. The member drawn for the uniform
random number `u` is the one in whose interval `u` falls, if `[0, 1)` is divided in the order of the list into intervals of length proportional to the fitness: its probability is proportional to its fitness;
a rule without matches (fitness `-inf`) or with fitness 0 is never drawn. If all are `-inf`, it returns as many members as requested. Missing: lists whose fitness is zero (or negative), where it is
false, see `C88_roulette_refuted`. -/
theorem C88_roulette_partial (rules : List (Rule K d M)) (hne : rules ≠ []) (fits : Rule K d M → Option K)
    (hf : ∀ ρ ∈ rules, ∃ s, ρ.st = some s ∧ (match fits ρ with | none => s.fitness = ⊥ | some f => s.fitness = ((f : K) : WithBot K) ∧ 0 ≤ f))
    (us : List K) (hu : ∀ u ∈ us, 0 ≤ u ∧ u < 1) (idx : List Nat) :
    ((∃ ρ ∈ rules, ∃ f, fits ρ = some f ∧ 0 < f) →
        ∃ out, ruleRoulette rules us idx = .ok out ∧ out.length = us.length ∧ ∀ (k : Nat) u, us[k]? = some u →
          ∃ before ρ after f, rules = before ++ ρ :: after ∧ out[k]? = some ρ ∧ fits ρ = some f ∧
            fitnessSum fits before ≤ u * fitnessSum fits rules ∧ u * fitnessSum fits rules < fitnessSum fits before + f) ∧
    ((∀ ρ ∈ rules, fits ρ = none) → ChoiceOk (K := K) rules.length none true us.length idx →
        ∃ out, ruleRoulette rules us idx = .ok out ∧ out.length = us.length ∧ ∀ ρ ∈ out, ρ ∈ rules) := by
  have hall : rules.all (fun ρ => ρ.st.isSome) = true := by
    rw [List.all_eq_true]; intro ρ hρ
    obtain ⟨s, hs, _⟩ := hf ρ hρ
    rw [hs]; rfl
  have hfit : ∀ ρ ∈ rules, ruleFitnessOf ρ = (match fits ρ with | none => ⊥ | some f => ((f : K) : WithBot K)) := by
    intro ρ hρ
    obtain ⟨s, hs, h⟩ := hf ρ hρ
    unfold ruleFitnessOf
    rw [hs]
    cases hx : fits ρ with
    | none => rw [hx] at h; exact h
    | some f => rw [hx] at h; exact h.1
  have hfs : ∀ l : List (Rule K d M), (∀ ρ ∈ l, ρ ∈ rules) →
      (l.filter fun ρ => decide (ruleFitnessOf ρ ≠ ⊥)).map (fun ρ => (ruleFitnessOf ρ).unbotD 0) = l.filterMap fits ∧
      (l.filter fun ρ => decide (ruleFitnessOf ρ ≠ ⊥)) = l.filterMap fun ρ => (fits ρ).map fun _ => ρ := by
    intro l hl
    induction l with
    | nil => exact ⟨rfl, rfl⟩
    | cons ρ rest ih =>
      have h1 := hfit ρ (hl ρ (List.mem_cons_self ..))
      have ih := ih fun τ hτ => hl τ (List.mem_cons_of_mem _ hτ)
      cases hx : fits ρ with
      | none =>
        rw [hx] at h1
        rw [List.filterMap_cons_none hx, List.filter_cons_of_neg (by simp [h1]), List.filterMap_cons_none (by rw [hx]; rfl)]
        exact ih
      | some f =>
        rw [hx] at h1
        rw [List.filterMap_cons_some hx, List.filter_cons_of_pos (by simp [h1]), List.map_cons, ih.1, h1, List.filterMap_cons_some (b := ρ) (by rw [hx]; rfl), ih.2]
        exact ⟨rfl, rfl⟩
  constructor
  · rintro ⟨ρ0, hρ0, f0, hf0, hpos⟩
    have hnn : ∀ f ∈ rules.filterMap fits, 0 ≤ f := by
      intro f h
      obtain ⟨ρ, hρ, hx⟩ := List.mem_filterMap.mp h
      obtain ⟨s, _, h⟩ := hf ρ hρ
      rw [hx] at h
      exact h.2
    obtain ⟨hs, hp, hp1, hp0⟩ := rouletteP_spec (rules.filterMap fits) hnn ⟨f0, List.mem_filterMap.mpr ⟨ρ0, hρ0, hf0⟩, hpos⟩
    have hmem : ρ0 ∈ rules.filter fun ρ => decide (ruleFitnessOf ρ ≠ ⊥) := by
      refine List.mem_filter.mpr ⟨hρ0, ?_⟩
      rw [hfit ρ0 hρ0, hf0]; simp
    have hlen : (rules.filter fun ρ => decide (ruleFitnessOf ρ ≠ ⊥)).length = (rules.filterMap fits).length := by
      rw [← (hfs rules fun _ h => h).1, List.length_map]
    have hrun : ruleRoulette rules us idx = .ok (us.filterMap fun u =>
        (rules.filter fun ρ => decide (ruleFitnessOf ρ ≠ ⊥))[searchCdf ((rules.filterMap fits).map (· / (rules.filterMap fits).sum)) u]?) := by
      unfold ruleRoulette
      rw [if_pos hall]
      dsimp only
      rw [if_pos (by intro h; exact (List.ne_nil_of_mem hmem) (List.length_eq_zero_iff.mp h)), (hfs rules fun _ h => h).1, hp]
      dsimp only
      unfold npChoiceP
      rw [if_neg]
      rintro (h | ⟨q, hq, h⟩ | h)
      · exact h (by rw [hlen, List.length_map])
      · exact absurd (hp0 q hq) (not_le.mpr h)
      · exact h hp1
    have hdraw : ∀ u ∈ us, ∃ before ρ after f, rules = before ++ ρ :: after ∧
        (rules.filter fun ρ => decide (ruleFitnessOf ρ ≠ ⊥))[searchCdf ((rules.filterMap fits).map (· / (rules.filterMap fits).sum)) u]? = some ρ ∧ fits ρ = some f ∧
            fitnessSum fits before ≤ u * fitnessSum fits rules ∧ u * fitnessSum fits rules < fitnessSum fits before + f := by
      intro u hu'
      obtain ⟨pre, q, post, e1, e2, e3, e4⟩ := searchCdf_spec _ hp0 u (hu u hu').1 (by rw [hp1]; exact (hu u hu').2)
      obtain ⟨pre', r1, e5, e6, e7⟩ := List.map_eq_append_iff.mp e1
      obtain ⟨f, post', e8, e9, e10⟩ := List.map_eq_cons_iff.mp e7
      subst e8
      obtain ⟨l1, ρ, l2, g1, g2, g3⟩ := split_filterMap fits rules pre' f post' e5
      refine ⟨l1, ρ, l2, f, g1, ?_, g3, ?_, ?_⟩
      · rw [e2, (hfs rules fun _ h => h).2, g1, List.filterMap_append, ← e6, List.length_map, ← g2]
        have hl : (l1.filterMap fun ρ => (fits ρ).map fun _ => ρ).length = (l1.filterMap fits).length := by
          clear * -
          induction l1 with
          | nil => rfl
          | cons x rest ih => cases hx : fits x <;> simp [hx, ih]
        rw [← hl, List.getElem?_append_right (le_refl _), Nat.sub_self, List.filterMap_cons_some (b := ρ) (by rw [g3]; rfl)]
        rfl
      · unfold fitnessSum
        rw [g2]
        rw [← e6, sum_map_div, div_le_iff₀ hs] at e3
        exact e3
      · unfold fitnessSum
        rw [g2]
        rw [← e6, ← e9, sum_map_div, ← add_div, lt_div_iff₀ hs] at e4
        exact e4
    obtain ⟨t1, t2⟩ := filterMap_total (fun u => (rules.filter fun ρ => decide (ruleFitnessOf ρ ≠ ⊥))[searchCdf ((rules.filterMap fits).map (· / (rules.filterMap fits).sum)) u]?) us
      (fun u hu' => by obtain ⟨_, ρ, _, _, _, h, _⟩ := hdraw u hu'; exact ⟨ρ, h⟩)
    refine ⟨_, hrun, t1, fun k u hk => ?_⟩
    obtain ⟨before, ρ, after, f, q1, q2, q3⟩ := hdraw u (List.mem_of_getElem? hk)
    exact ⟨before, ρ, after, f, q1, by rw [t2 k u hk]; exact q2, q3⟩
  · intro hnone hd
    have hemp : rules.filter (fun ρ => decide (ruleFitnessOf ρ ≠ ⊥)) = [] := by
      rw [List.filter_eq_nil_iff]
      intro ρ hρ
      rw [hfit ρ hρ, hnone ρ hρ]; simp
    obtain ⟨out, h1, h2, h3, _⟩ := npChoice_uniform (K := K) rules true us.length idx hne (by simp) hd
    refine ⟨out, ?_, h2, h3⟩
    unfold ruleRoulette
    rw [if_pos hall]
    dsimp only
    rw [hemp, if_neg (by simp), h1]

/-- C88 is false: if all rules have fitness 0, roulette wheel selection returns no rule at all, whatever is drawn. -/
theorem C88_roulette_refuted (rules : List (Rule K d M)) (hne : rules ≠ []) (h0 : ∀ ρ ∈ rules, ρ.HasFitness 0) (us : List K) (idx : List Nat) :
    ruleRoulette rules us idx = .ok [] := by
  have hall : rules.all (fun ρ => ρ.st.isSome) = true := by
    rw [List.all_eq_true]; intro ρ hρ; exact (h0 ρ hρ).of.1
  have hfil : (rules.filter fun ρ => decide (ruleFitnessOf ρ ≠ ⊥)) = rules := by
    rw [List.filter_eq_self]; intro ρ hρ; rw [(h0 ρ hρ).of.2]; simp
  have hsum : (rules.map fun ρ => (ruleFitnessOf ρ).unbotD 0).sum = 0 := by
    refine List.sum_eq_zero fun q hq => ?_
    obtain ⟨ρ, hρ, rfl⟩ := List.mem_map.mp hq
    rw [(h0 ρ hρ).of.2]; rfl
  unfold ruleRoulette
  rw [if_pos hall]
  dsimp only
  rw [hfil, if_pos (by intro h; exact hne (List.length_eq_zero_iff.mp h))]
  unfold rouletteP
  rw [if_pos hsum]

/-- C88: with non-negative fitness values (or minus infinity), at least one of them positive, the evolution strategy with the roulette wheel continues with the rule in whose share of the
total fitness the draw falls. -/
theorem C88_es_partial (rules : List (Rule K d M)) (fits : Rule K d M → Option K)
    (hf : ∀ ρ ∈ rules, ∃ s, ρ.st = some s ∧ (match fits ρ with | none => s.fitness = ⊥ | some f => s.fitness = ((f : K) : WithBot K) ∧ 0 ≤ f))
    (hpos : ∃ ρ ∈ rules, ∃ f, fits ρ = some f ∧ 0 < f) (u : K) (h0 : 0 ≤ u) (h1 : u < 1) (i : Nat) :
    ∃ before ρ after f, rules = before ++ ρ :: after ∧ rouletteFirst rules (u, i) = .ok ρ ∧ fits ρ = some f ∧
      fitnessSum fits before ≤ u * fitnessSum fits rules ∧ u * fitnessSum fits rules < fitnessSum fits before + f := by
  have hne : rules ≠ [] := by
    obtain ⟨ρ, hρ, _⟩ := hpos
    exact List.ne_nil_of_mem hρ
  obtain ⟨out, ho, hl, hk⟩ := (C88_roulette_partial rules hne fits hf [u] (by simpa using ⟨h0, h1⟩) [i]).1 hpos
  obtain ⟨before, ρ, after, f, e1, e2, e3, e4, e5⟩ := hk 0 u rfl
  refine ⟨before, ρ, after, f, e1, ?_, e3, e4, e5⟩
  unfold rouletteFirst
  dsimp only
  rw [ho]
  cases out with
  | nil => cases e2
  | cons a l => cases e2; rfl

/-- … and then the evolution strategy fails with an `IndexError`: here for the operators `,` and `&`, if the valid children of the first generation have fitness 0. -/
theorem C88_es_refuted (L : Learner K d M) (ff : RuleFitness K d) (X : List (Point K d)) (y : List K) (op : ESOperator) (hop : op = .comma ∨ op = .amp) (delay : Nat) (m : Mutation)
    (r : K) (fb : Pairs K d) (zs : List (Pairs K d)) (s : K × Nat) (gens : List (List (Pairs K d) × (K × Nat))) (initial : Rule K d M) (children : List (Rule K d M))
    (hc : zs.mapM (childRule L ff X y m r fb initial) = .ok children) (hv : ∃ ρ ∈ children, validRule ρ = true) (h0 : ∀ ρ ∈ children, validRule ρ = true → ρ.HasFitness 0) :
    esOptimize (rouletteES L ff X y op delay m r fb) ((zs, s) :: gens) initial = .error .indexError := by
  have hne : children.filter validRule ≠ [] := by
    obtain ⟨ρ, h1, h2⟩ := hv
    exact List.ne_nil_of_mem (List.mem_filter.mpr ⟨h1, h2⟩)
  have hsel : rouletteFirst (children.filter validRule) s = .error .indexError := by
    unfold rouletteFirst
    rw [C88_roulette_refuted _ hne (fun ρ hρ => h0 ρ (List.mem_filter.mp hρ).1 (List.mem_filter.mp hρ).2)]
  have hemp : (children.filter validRule).isEmpty = false := by
    cases hx : children.filter validRule with
    | nil => exact absurd hx hne
    | cons a l => rfl
  unfold esOptimize esLoop esGen rouletteES
  dsimp only
  rw [hc]
  dsimp only
  rw [hemp]
  rcases hop with rfl | rfl
  · simp only [Bool.false_eq_true, if_false]
    rw [hsel]
  · simp only [Bool.false_eq_true, if_false]
    rw [hsel]

example : (∀ ρ ∈ examplePool, ρ.HasFitness 0) ∧ examplePool ≠ [] := by
  refine ⟨?_, by simp [examplePool]⟩
  simp only [examplePool, List.forall_mem_cons, List.not_mem_nil, false_imp_iff, implies_true, and_true]
  exact ⟨⟨_, rfl, rfl⟩, ⟨_, rfl, rfl⟩, ⟨_, rfl, rfl⟩⟩

/-- Such a run: the fitness is the width of the interval (the volume), the child is the single point 1, in the data. -/
example : esOptimize (rouletteES meanLearner (fun _ _ b _ => (b 0).2 - (b 0).1) [![0], ![1], ![2]] [0, 2, 4] .comma 2 .normal 0 ![(0, 5)]) [([![(1, 0)]], (1/2, 0))] (intervalRule 0 1) =
    .error .indexError := by decide +kernel

/-- A rule with the fitness `f`. -/
def rouletteRule (f : ℚ) : Rule ℚ 1 ℚ :=
  { kind := .ordered, bounds := ![(0, 1)], inputSpace := ![(0, 3)], model := some f, st := some ⟨true, ((1 : ℚ) : WithTop ℚ), ((f : ℚ) : WithBot ℚ), 1, [], []⟩ }

example : (ruleFittest [rouletteRule 1, rouletteRule 0, rouletteRule 3] 2).toOption.map (fun l => l.map Rule.model) = some [some 3, some 1] := by decide +kernel

/-- Example: fitness 1, 0 and 3; the intervals are [0, 1/4), nothing and [1/4, 1). -/
example : (ruleRoulette [rouletteRule 1, rouletteRule 0, rouletteRule 3] [1/8, 1/4, 99/100] []).toOption.map (fun l => l.map Rule.model) =
    some [some 1, some 3, some 3] := by decide +kernel

example : ChoiceOk (K := ℚ) examplePool.length none true 2 [1, 1] ∧ (ruleRandom examplePool 2 [1, 1]).toOption.map (fun l => l.map Rule.model) = some [some 5, some 5] := by
  refine ⟨⟨rfl, ?_, ?_⟩, by decide +kernel⟩ <;> simp [examplePool]

/-! ### C89 – C91 the filters of the mixing model -/

theorem mixAt_perm (L : Learner K d M) (P : MixParams K) (sub sub' : List (Rule K d M)) (h : sub.Perm sub') (x : Point K d) : mixAt L P sub x = mixAt L P sub' x := by
  unfold mixAt numAt denAt
  rw [((h.filter fun ρ => ρ.kind.call ρ.bounds x).map fun ρ => ρ.valueAt L x * ρ.tauVal P).sum_eq, ((h.filter fun ρ => ρ.kind.call ρ.bounds x).map fun ρ => ρ.tauVal P).sum_eq]

theorem predict_filter (L : Learner K d M) (P : MixParams K) (filt : SubFilter K d M) (σ : Solution K d M) (hlen : σ.genome.length = σ.pool.length) (used : List (Rule K d M))
    (hne : compress σ.pool σ.genome ≠ []) (hf : filt (compress σ.pool σ.genome) = .ok used) (hr : ∀ ρ ∈ used, ρ.Ready) (X : List (Point K d)) :
    σ.predict L P filt false X = .ok (X.map (mixAt L P used)) := by
  unfold Solution.predict Solution.subpopulation mixing
  rw [if_pos hlen]
  dsimp only
  rw [if_neg (by simpa using hne), hf]
  exact mixRules_uncached L P X used hr

theorem predict_empty (L : Learner K d M) (P : MixParams K) (filt : SubFilter K d M) (σ : Solution K d M) (hlen : σ.genome.length = σ.pool.length)
    (hne : compress σ.pool σ.genome = []) (X : List (Point K d)) : σ.predict L P filt false X = .ok (List.replicate X.length 0) := by
  unfold Solution.predict Solution.subpopulation mixing
  rw [if_pos hlen]
  dsimp only
  rw [if_pos (by simpa using hne)]

/-- Any filter that returns all selected rules in some order has no influence on the predictions. -/
theorem predict_neutral (L : Learner K d M) (P : MixParams K) (filt : SubFilter K d M) (σ : Solution K d M) (hlen : σ.genome.length = σ.pool.length) (hp : ∀ ρ ∈ σ.pool, ρ.Usable)
    (hf : compress σ.pool σ.genome ≠ [] → ∃ used, filt (compress σ.pool σ.genome) = .ok used ∧ used.Perm (compress σ.pool σ.genome)) (X : List (Point K d)) :
    ∃ out, σ.predict L P filt false X = .ok out ∧ σ.predict L P filterAll false X = .ok out := by
  by_cases hne : compress σ.pool σ.genome = []
  · exact ⟨_, predict_empty L P filt σ hlen hne X, predict_empty L P filterAll σ hlen hne X⟩
  · obtain ⟨used, h1, h2⟩ := hf hne
    have hsub : ∀ ρ ∈ compress σ.pool σ.genome, ρ.Ready := fun ρ h => (hp ρ (mem_of_mem_compress h)).ready
    refine ⟨_, predict_filter L P filt σ hlen used hne h1 (fun ρ h => hsub ρ (h2.subset h)) X, ?_⟩
    rw [predict_filter L P filterAll σ hlen _ hne rfl hsub X]
    exact congrArg Except.ok (List.map_congr_left fun x _ => (mixAt_perm L P _ _ h2 x).symm)

theorem Rule.Usable.st {ρ : Rule K d M} (h : ρ.Usable) : ρ.st.isSome = true := h.ready.1

/-- What the filters with a rule amount do to a list of fitted rules: they return `min amount (number of rules)` of them. -/
theorem nRandom_members (amount : Nat) (sub : List (Rule K d M)) (hne : sub ≠ []) (idx : List Nat) (hd : ChoiceOk (K := K) sub.length none false (min sub.length amount) idx) :
    ∃ used, filterNRandom amount idx sub = .ok used ∧ used.length = min sub.length amount ∧ List.Subperm used sub := by
  obtain ⟨out, h1, h2, _, h4⟩ := npChoice_uniform (K := K) sub false (min sub.length amount) idx hne (fun _ => Nat.min_le_left _ _) hd
  exact ⟨out, h1, h2, h4 rfl⟩

theorem nBest_members (amount : Nat) (h1 : 1 ≤ amount) (sub : List (Rule K d M)) (hst : ∀ ρ ∈ sub, ρ.st.isSome) :
    ∃ used, nBestFitness amount sub = .ok used ∧ used.length = min sub.length amount ∧ List.Subperm used sub := by
  obtain ⟨kept, disc, e1, e2, e3, _⟩ := C22_partial amount h1 sub hst
  exact ⟨kept, e1, by rw [e3, Nat.min_comm], ((List.sublist_append_right disc kept).subperm).trans e2.subperm⟩

theorem roulette_fitness (sub : List (Rule K d M)) (fits : Rule K d M → K) (hf : ∀ ρ ∈ sub, ρ.HasFitness (fits ρ)) :
    sub.all (fun ρ => ρ.st.isSome) = true ∧ sub.any (fun ρ => decide (ruleFitnessOf ρ = ⊥)) = false ∧ sub.map (fun ρ => (ruleFitnessOf ρ).unbotD 0) = sub.map fits := by
  refine ⟨List.all_eq_true.mpr fun ρ h => (hf ρ h).of.1, ?_, List.map_congr_left fun ρ h => by rw [(hf ρ h).of.2]; rfl⟩
  rw [List.any_eq_false]
  intro ρ h
  rw [(hf ρ h).of.2]; simp

theorem roulette_members (amount : Nat) (sub : List (Rule K d M)) (hne : sub ≠ []) (fits : Rule K d M → K) (hf : ∀ ρ ∈ sub, ρ.HasFitness (fits ρ) ∧ 0 < fits ρ) (idx : List Nat)
    (hd : ChoiceOk (K := K) sub.length none false (min sub.length amount) idx) :
    ∃ used, filterRoulette amount idx sub = .ok used ∧ used.length = min sub.length amount ∧ List.Subperm used sub := by
  obtain ⟨e1, e2, e3⟩ := roulette_fitness sub fits fun ρ h => (hf ρ h).1
  obtain ⟨ρ0, rest, rfl⟩ := List.exists_cons_of_ne_nil hne
  generalize hsub : ρ0 :: rest = sub at *
  have hpos : ∀ f ∈ sub.map fits, 0 < f := by
    intro f h
    obtain ⟨ρ, hρ, rfl⟩ := List.mem_map.mp h
    exact (hf ρ hρ).2
  obtain ⟨hs, hp, hp1, hp0⟩ := rouletteP_spec (sub.map fits) (fun f h => (hpos f h).le)
    ⟨fits ρ0, List.mem_map_of_mem (by rw [← hsub]; exact List.mem_cons_self ..), hpos _ (List.mem_map_of_mem (by rw [← hsub]; exact List.mem_cons_self ..))⟩
  have hq : ∀ q ∈ (sub.map fits).map (· / (sub.map fits).sum), q ≠ 0 := by
    intro q hq
    obtain ⟨f, h, rfl⟩ := List.mem_map.mp hq
    exact (div_pos (hpos f h) hs).ne'
  obtain ⟨h1, h2, h3⟩ := hd
  obtain ⟨out, g1, g2, _, g4⟩ := npChoice_weighted sub _ false (min sub.length amount) idx hne (by simp) hp0 hp1
    (fun _ => ⟨Nat.min_le_left _ _, by rw [List.filter_eq_self.mpr fun q h => by simpa using hq q h]; simp⟩)
    ⟨h1, fun i hi => ⟨(h2 i hi).1, fun q hq' => by
      cases hq'
      have hi' := (h2 i hi).1
      rw [List.getD_eq_getElem?_getD, List.getElem?_eq_getElem (by simpa using hi')]
      exact hq _ (List.getElem_mem _)⟩, h3⟩
  refine ⟨out, ?_, g2, g4 rfl⟩
  unfold filterRoulette
  rw [if_pos e1, e2, if_neg (by simp), e3, hp]
  exact g1

/-- C89: a solution whose mixing model keeps the best `amount` rules predicts the same as one without a filter if it selects at most `amount` rules. -/
theorem C89_n_best (L : Learner K d M) (P : MixParams K) (amount : Nat) (σ : Solution K d M) (hlen : σ.genome.length = σ.pool.length) (hp : ∀ ρ ∈ σ.pool, ρ.Usable)
    (hn : (compress σ.pool σ.genome).length ≤ amount) (X : List (Point K d)) :
    ∃ out, σ.predict L P (nBestFitness amount) false X = .ok out ∧ σ.predict L P filterAll false X = .ok out := by
  refine predict_neutral L P _ σ hlen hp (fun hne => ?_) X
  obtain ⟨used, h1, h2, h3⟩ := nBest_members amount (le_trans (List.length_pos_of_ne_nil hne) hn) (compress σ.pool σ.genome) fun ρ h => (hp ρ (mem_of_mem_compress h)).st
  exact ⟨used, h1, h3.perm_of_length_le (by omega)⟩

/-- C89: likewise for a mixing model that keeps `amount` random rules, whatever is drawn. -/
theorem C89_n_random (L : Learner K d M) (P : MixParams K) (amount : Nat) (σ : Solution K d M) (hlen : σ.genome.length = σ.pool.length) (hp : ∀ ρ ∈ σ.pool, ρ.Usable)
    (hn : (compress σ.pool σ.genome).length ≤ amount) (idx : List Nat)
    (hd : ChoiceOk (K := K) (compress σ.pool σ.genome).length none false (min (compress σ.pool σ.genome).length amount) idx) (X : List (Point K d)) :
    ∃ out, σ.predict L P (filterNRandom amount idx) false X = .ok out ∧ σ.predict L P filterAll false X = .ok out := by
  refine predict_neutral L P _ σ hlen hp (fun hne => ?_) X
  obtain ⟨used, h1, h2, h3⟩ := nRandom_members amount (compress σ.pool σ.genome) hne idx hd
  exact ⟨used, h1, h3.perm_of_length_le (by omega)⟩

/-- C89 (partial): likewise for roulette wheel selection of `amount` rules, if all selected rules have a positive finite fitness. Missing: other fitness values, where it is false. -/
theorem C89_roulette_partial (L : Learner K d M) (P : MixParams K) (amount : Nat) (σ : Solution K d M) (hlen : σ.genome.length = σ.pool.length) (hp : ∀ ρ ∈ σ.pool, ρ.Usable)
    (hn : (compress σ.pool σ.genome).length ≤ amount) (fits : Rule K d M → K) (hf : ∀ ρ ∈ σ.pool, ρ.HasFitness (fits ρ) ∧ 0 < fits ρ) (idx : List Nat)
    (hd : ChoiceOk (K := K) (compress σ.pool σ.genome).length none false (min (compress σ.pool σ.genome).length amount) idx) (X : List (Point K d)) :
    ∃ out, σ.predict L P (filterRoulette amount idx) false X = .ok out ∧ σ.predict L P filterAll false X = .ok out := by
  refine predict_neutral L P _ σ hlen hp (fun hne => ?_) X
  obtain ⟨used, h1, h2, h3⟩ := roulette_members amount (compress σ.pool σ.genome) hne fits (fun ρ h => hf ρ (mem_of_mem_compress h)) idx hd
  exact ⟨used, h1, h3.perm_of_length_le (by omega)⟩

/-- C89 is false for roulette wheel selection: whenever the fitness values of the selected rules are not negative, one of them is 0 and `amount` is at least their number, predicting fails with a
`ValueError`, whatever is drawn. -/
theorem C89_roulette_refuted (L : Learner K d M) (P : MixParams K) (amount : Nat) (σ : Solution K d M) (hlen : σ.genome.length = σ.pool.length)
    (hn : (compress σ.pool σ.genome).length ≤ amount) (fits : Rule K d M → K) (hf : ∀ ρ ∈ σ.pool, ρ.HasFitness (fits ρ) ∧ 0 ≤ fits ρ)
    (h0 : ∃ ρ ∈ compress σ.pool σ.genome, fits ρ = 0) (idx : List Nat) (cache : Bool) (X : List (Point K d)) :
    σ.predict L P (filterRoulette amount idx) cache X = .error .valueError := by
  obtain ⟨ρ0, hρ0, hz⟩ := h0
  have hne : compress σ.pool σ.genome ≠ [] := List.ne_nil_of_mem hρ0
  have hf' : ∀ ρ ∈ compress σ.pool σ.genome, ρ.HasFitness (fits ρ) ∧ 0 ≤ fits ρ := fun ρ h => hf ρ (mem_of_mem_compress h)
  unfold Solution.predict Solution.subpopulation mixing
  rw [if_pos hlen]
  dsimp only
  rw [if_neg (by simpa using hne)]
  generalize compress σ.pool σ.genome = sub at *
  obtain ⟨e1, e2, e3⟩ := roulette_fitness sub fits fun ρ h => (hf' ρ h).1
  have : filterRoulette (K := K) amount idx sub = .error .valueError := by
    unfold filterRoulette
    rw [if_pos e1, e2, if_neg (by simp), e3]
    by_cases hs : (sub.map fits).sum = 0
    · unfold rouletteP; rw [if_pos hs]
    · unfold rouletteP; rw [if_neg hs]
      dsimp only
      unfold npChoice
      rw [if_neg (by intro h; exact hne (List.length_eq_zero_iff.mp h.1))]
      dsimp only
      split_ifs with g1 g2
      · rfl
      · rfl
      · exfalso
        refine g2 ⟨rfl, Or.inr ?_⟩
        rw [Nat.min_eq_left hn]
        have hlt : (((sub.map fits).map (· / (sub.map fits).sum)).filter fun q => decide (q ≠ 0)).length < ((sub.map fits).map (· / (sub.map fits).sum)).length := by
          refine List.length_filter_lt_length_iff_exists.mpr ⟨0, ?_, by simp⟩
          exact List.mem_map.mpr ⟨0, List.mem_map.mpr ⟨ρ0, hρ0, hz⟩, by simp⟩
        simpa using hlt
  rw [this]

/-- Such a solution: two rules with fitness 1 and 0, six rules are allowed. -/
example : Solution.predict meanLearner ⟨.plain, 1⟩ (filterRoulette 6 [0, 1]) false { genome := [true, true], pool := [rouletteRule 1, rouletteRule 0] } [![1/2]] = .error .valueError := by
  decide +kernel

/-- Without the zero the filter has no influence. -/
example : Solution.predict meanLearner ⟨.plain, 1⟩ (filterRoulette 6 [1, 0]) false { genome := [true, true], pool := [rouletteRule 1, rouletteRule 3] } [![1/2]] = .ok [2] ∧
    Solution.predict meanLearner ⟨.plain, 1⟩ (filterNRandom 6 [1, 0]) false { genome := [true, true], pool := [rouletteRule 1, rouletteRule 3] } [![1/2]] = .ok [2] ∧
    Solution.predict meanLearner ⟨.plain, 1⟩ (nBestFitness 6) false { genome := [true, true], pool := [rouletteRule 1, rouletteRule 3] } [![1/2]] = .ok [2] ∧
    ChoiceOk (K := ℚ) 2 none false (min 2 6) [1, 0] := by
  refine ⟨by decide +kernel, by decide +kernel, by decide +kernel, rfl, ?_, ?_⟩ <;> simp

/-- The predictions `out` for `X` mix the rules `used` only: 0 where none of them matches, and otherwise between the smallest and the largest local prediction of the matching ones. -/
def MixesOnly (L : Learner K d M) (used : List (Rule K d M)) (X : List (Point K d)) (out : List K) : Prop :=
  out.length = X.length ∧ ∀ x v, (x, v) ∈ X.zip out →
    ((∀ ρ ∈ used, ρ.kind.call ρ.bounds x = false) → v = 0) ∧
    ((∃ ρ ∈ used, ρ.kind.call ρ.bounds x = true) →
      ∀ a b, (∀ ρ ∈ used, ρ.kind.call ρ.bounds x = true → ∀ u, ρ.LocalPrediction L x u → a ≤ u ∧ u ≤ b) → a ≤ v ∧ v ≤ b)

theorem mixesOnly (L : Learner K d M) (P : MixParams K) (hw : 0 < P.weight) (hc : P.expCalc.Positive d) (filt : SubFilter K d M) (σ : Solution K d M)
    (hlen : σ.genome.length = σ.pool.length) (hp : ∀ ρ ∈ σ.pool, ρ.Usable) (amount : Nat)
    (hf : compress σ.pool σ.genome ≠ [] → ∃ used, filt (compress σ.pool σ.genome) = .ok used ∧ used.length = min (compress σ.pool σ.genome).length amount ∧
      List.Subperm used (compress σ.pool σ.genome)) (X : List (Point K d)) :
    ∃ used out, List.Subperm used (compress σ.pool σ.genome) ∧ used.length = min (compress σ.pool σ.genome).length amount ∧
      σ.predict L P filt false X = .ok out ∧ MixesOnly L used X out := by
  have hconv := fun (used : List (Rule K d M)) (hu : ∀ ρ ∈ used, ρ.Usable) =>
    C17_convex L P hw hc { genome := List.replicate used.length true, pool := used } (by simp) hu X
  by_cases hne : compress σ.pool σ.genome = []
  · refine ⟨[], List.replicate X.length 0, by rw [hne], by rw [hne]; simp, predict_empty L P filt σ hlen hne X, by simp, fun x v hv => ⟨fun _ => ?_, ?_⟩⟩
    · exact List.eq_of_mem_replicate (List.of_mem_zip hv).2
    · rintro ⟨ρ, h, _⟩; simp at h
  · obtain ⟨used, h1, h2, h3⟩ := hf hne
    have hu : ∀ ρ ∈ used, ρ.Usable := fun ρ h => hp ρ (mem_of_mem_compress (h3.subset h))
    obtain ⟨out, g1, g2, g3⟩ := hconv used hu
    rw [compress_true] at g3
    refine ⟨used, out, h3, h2, ?_, g2, g3⟩
    rw [predict_filter L P filt σ hlen used hne h1 (fun ρ h => (hu ρ h).ready) X, ← g1]
    unfold Solution.predict Solution.subpopulation
    rw [if_pos (by simp)]
    dsimp only
    rw [compress_true]
    exact (mixing_all_uncached L P X used fun ρ h => (hu ρ h).ready).symm

/-- C90: with a mixing model that keeps `amount` random rules, predictions succeed and mix `amount` of the selected rules (all, if there are fewer). -/
theorem C90_n_random (L : Learner K d M) (P : MixParams K) (hw : 0 < P.weight) (hc : P.expCalc.Positive d) (amount : Nat) (σ : Solution K d M)
    (hlen : σ.genome.length = σ.pool.length) (hp : ∀ ρ ∈ σ.pool, ρ.Usable) (idx : List Nat)
    (hd : ChoiceOk (K := K) (compress σ.pool σ.genome).length none false (min (compress σ.pool σ.genome).length amount) idx) (X : List (Point K d)) :
    ∃ used out, List.Subperm used (compress σ.pool σ.genome) ∧ used.length = min (compress σ.pool σ.genome).length amount ∧
      σ.predict L P (filterNRandom amount idx) false X = .ok out ∧ MixesOnly L used X out :=
  mixesOnly L P hw hc _ σ hlen hp amount (fun hne => nRandom_members amount _ hne idx hd) X

/-- C90 (partial): likewise for the best rules, if `amount` is positive. Missing: `amount = 0`, where all selected rules are used (`C90_n_best_refuted`). -/
theorem C90_n_best_partial (L : Learner K d M) (P : MixParams K) (hw : 0 < P.weight) (hc : P.expCalc.Positive d) (amount : Nat) (ha : 1 ≤ amount) (σ : Solution K d M)
    (hlen : σ.genome.length = σ.pool.length) (hp : ∀ ρ ∈ σ.pool, ρ.Usable) (X : List (Point K d)) :
    ∃ used out, List.Subperm used (compress σ.pool σ.genome) ∧ used.length = min (compress σ.pool σ.genome).length amount ∧
      σ.predict L P (nBestFitness amount) false X = .ok out ∧ MixesOnly L used X out :=
  mixesOnly L P hw hc _ σ hlen hp amount (fun _ => nBest_members amount ha _ fun ρ h => (hp ρ (mem_of_mem_compress h)).st) X

/-- C90 (partial): likewise for roulette wheel selection, if all rules have a positive finite fitness. Missing: other fitness values, where predicting can fail (`C89_roulette_refuted`). -/
theorem C90_roulette_partial (L : Learner K d M) (P : MixParams K) (hw : 0 < P.weight) (hc : P.expCalc.Positive d) (amount : Nat) (σ : Solution K d M)
    (hlen : σ.genome.length = σ.pool.length) (hp : ∀ ρ ∈ σ.pool, ρ.Usable) (fits : Rule K d M → K) (hf : ∀ ρ ∈ σ.pool, ρ.HasFitness (fits ρ) ∧ 0 < fits ρ) (idx : List Nat)
    (hd : ChoiceOk (K := K) (compress σ.pool σ.genome).length none false (min (compress σ.pool σ.genome).length amount) idx) (X : List (Point K d)) :
    ∃ used out, List.Subperm used (compress σ.pool σ.genome) ∧ used.length = min (compress σ.pool σ.genome).length amount ∧
      σ.predict L P (filterRoulette amount idx) false X = .ok out ∧ MixesOnly L used X out :=
  mixesOnly L P hw hc _ σ hlen hp amount (fun hne => roulette_members amount _ hne fits (fun ρ h => hf ρ (mem_of_mem_compress h)) idx hd) X

/-- C90 is false for the best zero rules: a solution that may use no rule predicts 1 like the rule it selects. -/
theorem C90_n_best_refuted : ∃ σ : Solution ℚ 1 ℚ, σ.genome.length = σ.pool.length ∧ (∀ ρ ∈ σ.pool, ρ.Usable) ∧
    σ.predict meanLearner ⟨.plain, 1⟩ (nBestFitness 0) false [![1]] = .ok [1] ∧ ∀ used out, used.length = min (compress σ.pool σ.genome).length 0 →
      σ.predict meanLearner ⟨.plain, 1⟩ (nBestFitness 0) false [![1]] = .ok out → ¬ MixesOnly meanLearner used [![1]] out := by
  refine ⟨{ genome := [true], pool := [fittedRule 0 2 1 1 3] }, rfl, ?_, by decide +kernel, ?_⟩
  · intro ρ h
    rw [List.mem_singleton.mp h]
    exact fittedRule_usable _ _ _ _ _ (by norm_num) (by norm_num)
  · intro used out hu hout ⟨_, hm⟩
    have h1 : Solution.predict meanLearner ⟨.plain, 1⟩ (nBestFitness 0) false { genome := [true], pool := [fittedRule 0 2 1 1 3] } [![1]] = .ok [1] := by decide +kernel
    rw [h1] at hout
    have h2 := Except.ok.inj hout
    subst h2
    have h3 : used = [] := List.length_eq_zero_iff.mp (by rw [hu]; rfl)
    subst h3
    exact absurd ((hm ![1] 1 (by simp)).1 (by simp)) (by norm_num)

/-! ### C91 repeated predictions -/

/-- C91 is false: with a mixing model that keeps one random rule, a solution of two rules predicts 1 for a sample if one rule is drawn, and 3 if the other is. -/
theorem C91_refuted : ∃ σ : Solution ℚ 1 ℚ, σ.genome.length = σ.pool.length ∧ (∀ ρ ∈ σ.pool, ρ.Usable) ∧ ∃ idx idx',
    ChoiceOk (K := ℚ) (compress σ.pool σ.genome).length none false (min (compress σ.pool σ.genome).length 1) idx ∧
    ChoiceOk (K := ℚ) (compress σ.pool σ.genome).length none false (min (compress σ.pool σ.genome).length 1) idx' ∧
    σ.predict meanLearner ⟨.plain, 1⟩ (filterNRandom 1 idx) false [![1/2]] = .ok [1] ∧ σ.predict meanLearner ⟨.plain, 1⟩ (filterNRandom 1 idx') false [![1/2]] = .ok [3] := by
  refine ⟨{ genome := [true, true], pool := [rouletteRule 1, rouletteRule 3] }, rfl, ?_, [0], [1], ?_, ?_, by decide +kernel, by decide +kernel⟩
  · intro ρ h
    simp only [List.mem_cons, List.not_mem_nil, or_false] at h
    rcases h with rfl | rfl
    · exact ⟨_, _, 1, rfl, rfl, rfl, by norm_num, by norm_num⟩
    · exact ⟨_, _, 1, rfl, rfl, rfl, by norm_num, by norm_num⟩
  · refine ⟨rfl, ?_, ?_⟩ <;> simp [compress]
  · refine ⟨rfl, ?_, ?_⟩ <;> simp [compress]

/-- C91 (partial): two predictions of the same samples agree whatever is drawn if the solution selects at most as many rules as the mixing model keeps (for roulette wheel selection: and all
rules have a positive finite fitness). The filters without randomness (all rules, the best rules) draw nothing. Missing: more selected rules, where it is false. -/
theorem C91_partial (L : Learner K d M) (P : MixParams K) (amount : Nat) (σ : Solution K d M) (hlen : σ.genome.length = σ.pool.length) (hp : ∀ ρ ∈ σ.pool, ρ.Usable)
    (hn : (compress σ.pool σ.genome).length ≤ amount) (idx idx' : List Nat)
    (hd : ChoiceOk (K := K) (compress σ.pool σ.genome).length none false (min (compress σ.pool σ.genome).length amount) idx)
    (hd' : ChoiceOk (K := K) (compress σ.pool σ.genome).length none false (min (compress σ.pool σ.genome).length amount) idx') (X : List (Point K d)) :
    (∃ out, σ.predict L P (filterNRandom amount idx) false X = .ok out ∧ σ.predict L P (filterNRandom amount idx') false X = .ok out) ∧
    (∀ fits : Rule K d M → K, (∀ ρ ∈ σ.pool, ρ.HasFitness (fits ρ) ∧ 0 < fits ρ) →
      ∃ out, σ.predict L P (filterRoulette amount idx) false X = .ok out ∧ σ.predict L P (filterRoulette amount idx') false X = .ok out) := by
  constructor
  · obtain ⟨out, h1, h2⟩ := C89_n_random L P amount σ hlen hp hn idx hd X
    obtain ⟨out', h1', h2'⟩ := C89_n_random L P amount σ hlen hp hn idx' hd' X
    rw [h2] at h2'
    rw [← Except.ok.inj h2'] at h1'
    exact ⟨out, h1, h1'⟩
  · intro fits hf
    obtain ⟨out, h1, h2⟩ := C89_roulette_partial L P amount σ hlen hp hn fits hf idx hd X
    obtain ⟨out', h1', h2'⟩ := C89_roulette_partial L P amount σ hlen hp hn fits hf idx' hd' X
    rw [h2] at h2'
    rw [← Except.ok.inj h2'] at h1'
    exact ⟨out, h1, h1'⟩

end Suprb
