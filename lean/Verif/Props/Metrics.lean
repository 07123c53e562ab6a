import Verif.Model.Metrics
import Verif.Props.Discovery
import Verif.Lemmas.Composition
import Mathlib.Algebra.BigOperators.Group.Finset.Basic
import Mathlib.Algebra.Order.BigOperators.Group.Finset
import Mathlib.Algebra.BigOperators.Ring.Finset
import Mathlib.Tactic.Ring
import Mathlib.Tactic.Linarith
import Mathlib.Tactic.Positivity
import Mathlib.Tactic.NormNum

/-!
# Properties of the logging metrics and of combined loggers: C92 – C95
-/

set_option autoImplicit false
set_option linter.unusedSectionVars false

namespace Suprb

open Spec

variable {K : Type} [Field K] [LinearOrder K] [IsStrictOrderedRing K] {d : Nat} {M : Type}

/-! ### C92 genome diversity -/

/-- How many solutions select the rule `i`. -/
def timesSelected (pop : List (Indiv K)) (i : Nat) : Nat := pop.countP fun σ => σ.genome.getD i false

theorem countP_zip_sum (a b : List Bool) (h : a.length = b.length) :
    (a.zip b).countP (fun p => p.1 != p.2) = ∑ i ∈ Finset.range a.length, if a.getD i false = b.getD i false then 0 else 1 := by
  induction a generalizing b with
  | nil => simp
  | cons x xs ih =>
    cases b with
    | nil => simp at h
    | cons y ys =>
      rw [List.length_cons, Finset.sum_range_succ', List.zip_cons_cons, List.countP_cons, ih ys (by simpa using h)]
      simp only [List.getD_cons_succ, List.getD_cons_zero]
      congr 1
      cases x <;> cases y <;> simp

theorem sum_differing (L : Nat) (g : List Bool) (pop : List (Indiv K)) :
    (pop.map fun σ => ∑ i ∈ Finset.range L, if g.getD i false = σ.genome.getD i false then 0 else 1).sum =
      ∑ i ∈ Finset.range L, if g.getD i false then pop.length - timesSelected pop i else timesSelected pop i := by
  induction pop with
  | nil => simp [timesSelected]
  | cons σ rest ih =>
    rw [List.map_cons, List.sum_cons, ih, ← Finset.sum_add_distrib]
    refine Finset.sum_congr rfl fun i _ => ?_
    have hle : timesSelected rest i ≤ rest.length := List.countP_le_length
    unfold timesSelected at *
    rw [List.countP_cons, List.length_cons]
    cases g.getD i false <;> cases σ.genome.getD i false <;> simp only [Bool.false_eq_true, if_true, if_false, reduceCtorEq] <;> omega

/-- The distances of all pairs, counted rule by rule. -/
theorem pair_distances (L : Nat) (pop : List (Indiv K)) (hl : ∀ σ ∈ pop, σ.genome.length = L) :
    ∃ ds : List Nat, ((combinations2 pop).mapM fun p => genomeHamming p.1.genome p.2.genome) = .ok ds ∧
      ds.sum = ∑ i ∈ Finset.range L, timesSelected pop i * (pop.length - timesSelected pop i) := by
  induction pop with
  | nil => exact ⟨[], rfl, by simp [timesSelected]⟩
  | cons σ rest ih =>
    obtain ⟨ds, h1, h2⟩ := ih fun τ h => hl τ (List.mem_cons_of_mem _ h)
    have hσ := hl σ (List.mem_cons_self ..)
    have hfst : ((rest.map fun b => (σ, b)).mapM fun p => genomeHamming p.1.genome p.2.genome) =
        .ok ((rest.map fun b => (σ, b)).map fun p => ∑ i ∈ Finset.range L, if p.1.genome.getD i false = p.2.genome.getD i false then 0 else 1) := by
      refine mapM_ok _ _ _ fun p hp => ?_
      obtain ⟨τ, hτ, rfl⟩ := List.mem_map.mp hp
      have hτ' := hl τ (List.mem_cons_of_mem _ hτ)
      unfold genomeHamming
      rw [if_pos (by rw [hσ, hτ']), countP_zip_sum _ _ (by rw [hσ, hτ']), hσ]
    refine ⟨((rest.map fun b => (σ, b)).map fun p => ∑ i ∈ Finset.range L, if p.1.genome.getD i false = p.2.genome.getD i false then 0 else 1) ++ ds, ?_, ?_⟩
    · unfold combinations2
      rw [List.mapM_append, hfst, h1]
      rfl
    · rw [List.sum_append, h2, List.map_map]
      have := sum_differing L σ.genome rest
      rw [show ((fun p : Indiv K × Indiv K => ∑ i ∈ Finset.range L, if p.1.genome.getD i false = p.2.genome.getD i false then 0 else 1) ∘ fun b => (σ, b)) =
        fun τ => ∑ i ∈ Finset.range L, if σ.genome.getD i false = τ.genome.getD i false then 0 else 1 from rfl, this, ← Finset.sum_add_distrib]
      refine Finset.sum_congr rfl fun i _ => ?_
      have hle : timesSelected rest i ≤ rest.length := List.countP_le_length
      obtain ⟨r, hr⟩ := Nat.exists_eq_add_of_le hle
      unfold timesSelected at *
      rw [List.countP_cons, List.length_cons]
      cases σ.genome.getD i false
      · simp only [Bool.false_eq_true, if_false, Nat.add_zero]
        rw [hr, Nat.add_sub_cancel_left, Nat.add_assoc, Nat.add_sub_cancel_left]; ring
      · simp only [if_true]
        rw [hr, Nat.add_sub_cancel_left, show List.countP (fun σ => σ.genome.getD i false) rest + r + 1 - (List.countP (fun σ => σ.genome.getD i false) rest + 1) = r by omega]; ring

theorem diversity_eq (L : Nat) (pop : List (Indiv K)) (hne : pop ≠ []) (hl : ∀ σ ∈ pop, σ.genome.length = L) :
    genomeDiversity pop = .ok (npDiv (((∑ i ∈ Finset.range L, timesSelected pop i * (pop.length - timesSelected pop i) : Nat)) : K) (L : K)) := by
  obtain ⟨ds, h1, h2⟩ := pair_distances L pop hl
  unfold genomeDiversity
  rw [h1, ← h2]
  cases pop with
  | nil => exact absurd rfl hne
  | cons σ rest => rw [← hl σ (List.mem_cons_self ..)]

/-- C92 (partial): for a non-empty population of genomes of one positive length the diversity is a number. Multiplied by the genome length it is the number of (pair of solutions, rule) such that the
solutions disagree about the rule; it is not negative, zero exactly if all genomes are equal, and at most a quarter of the squared population size, hence at most 1 for two solutions. Missing: at most 1 for
larger populations, which is false (`C92_refuted`). -/
theorem C92_partial (L : Nat) (hL : 0 < L) (pop : List (Indiv K)) (hne : pop ≠ []) (hl : ∀ σ ∈ pop, σ.genome.length = L) :
    ∃ v : K, genomeDiversity pop = .ok (.val v) ∧
      v * (L : K) = (∑ i ∈ Finset.range L, (pop.countP fun σ => σ.genome.getD i false) * (pop.countP fun σ => !σ.genome.getD i false) : Nat) ∧
      0 ≤ v ∧ (v = 0 ↔ ∀ σ ∈ pop, ∀ τ ∈ pop, σ.genome = τ.genome) ∧ 4 * v ≤ (pop.length : K) ^ 2 ∧ (pop.length ≤ 2 → v ≤ 1) := by
  have hLK : (0 : K) < (L : K) := by exact_mod_cast hL
  have hcompl : ∀ i, (pop.countP fun σ => !σ.genome.getD i false) = pop.length - timesSelected pop i := by
    intro i
    have := List.length_eq_countP_add_countP (fun σ : Indiv K => σ.genome.getD i false) (l := pop)
    unfold timesSelected
    have h2 : (pop.countP fun σ => !σ.genome.getD i false) = pop.countP fun σ => decide ¬ (σ.genome.getD i false = true) :=
      List.countP_congr fun σ _ => by cases σ.genome.getD i false <;> simp
    omega
  refine ⟨_ / (L : K), by rw [diversity_eq L pop hne hl]; unfold npDiv; rw [if_neg hLK.ne'], ?_, ?_, ?_, ?_⟩
  · rw [div_mul_cancel₀ _ hLK.ne']
    refine congrArg Nat.cast (Finset.sum_congr rfl fun i _ => ?_)
    rw [hcompl]; rfl
  · exact div_nonneg (Nat.cast_nonneg _) hLK.le
  · rw [div_eq_zero_iff, or_iff_left hLK.ne', Nat.cast_eq_zero, Finset.sum_eq_zero_iff]
    constructor
    · intro h σ hσ τ hτ
      refine List.ext_getElem (by rw [hl σ hσ, hl τ hτ]) fun i h1 h2 => ?_
      have hi := h i (Finset.mem_range.mpr (by rw [← hl σ hσ]; exact h1))
      have e1 : σ.genome.getD i false = σ.genome[i] := by rw [List.getD_eq_getElem?_getD, List.getElem?_eq_getElem h1]; rfl
      have e2 : τ.genome.getD i false = τ.genome[i] := by rw [List.getD_eq_getElem?_getD, List.getElem?_eq_getElem h2]; rfl
      rw [← e1, ← e2]
      have hle : timesSelected pop i ≤ pop.length := List.countP_le_length
      rcases Nat.mul_eq_zero.mp hi with h0 | h0
      · have := List.countP_eq_zero.mp h0
        rw [Bool.eq_false_iff.mpr (this σ hσ), Bool.eq_false_iff.mpr (this τ hτ)]
      · have h3 : timesSelected pop i = pop.length := by omega
        have := List.countP_eq_length.mp h3
        rw [this σ hσ, this τ hτ]
    · intro h i _
      obtain ⟨σ, rest, rfl⟩ := List.exists_cons_of_ne_nil hne
      cases hb : σ.genome.getD i false with
      | false =>
        have : timesSelected (σ :: rest) i = 0 := List.countP_eq_zero.mpr fun τ hτ => by rw [h τ hτ σ (List.mem_cons_self ..), hb]; simp
        rw [this, Nat.zero_mul]
      | true =>
        have : timesSelected (σ :: rest) i = (σ :: rest).length := List.countP_eq_length.mpr fun τ hτ => by rw [h τ hτ σ (List.mem_cons_self ..), hb]
        rw [this, Nat.sub_self, Nat.mul_zero]
  · have hb : (4 : K) * (((∑ i ∈ Finset.range L, timesSelected pop i * (pop.length - timesSelected pop i) : Nat) : K) / (L : K)) ≤ (pop.length : K) ^ 2 := by
      rw [mul_div_assoc', div_le_iff₀ hLK]
      have hN : 4 * (∑ i ∈ Finset.range L, timesSelected pop i * (pop.length - timesSelected pop i)) ≤ pop.length ^ 2 * L := by
        rw [Finset.mul_sum]
        refine le_trans (Finset.sum_le_card_nsmul _ _ (pop.length ^ 2) fun i _ => ?_) (by simp [Nat.mul_comm])
        have hle : timesSelected pop i ≤ pop.length := List.countP_le_length
        obtain ⟨r, hr⟩ := Nat.exists_eq_add_of_le hle
        rw [hr, Nat.add_sub_cancel_left]
        have := sq_nonneg ((timesSelected pop i : ℤ) - r)
        zify
        nlinarith
      exact_mod_cast hN
    refine ⟨hb, fun h2 => ?_⟩
    have h3 : (pop.length : K) ^ 2 ≤ 4 := by
      have : pop.length ^ 2 ≤ 4 := by nlinarith
      exact_mod_cast this
    linarith

/-- C92: the order of the population does not matter. -/
theorem C92_order_irrelevant (L : Nat) (pop pop' : List (Indiv K)) (h : pop.Perm pop') (hne : pop ≠ []) (hl : ∀ σ ∈ pop, σ.genome.length = L) :
    genomeDiversity pop = genomeDiversity pop' := by
  rw [diversity_eq L pop hne hl, diversity_eq L pop' (fun h' => hne (by rw [h'] at h; exact h.eq_nil)) fun σ hσ => hl σ (h.symm.subset hσ)]
  have : ∀ i, timesSelected pop i = timesSelected pop' i := fun i => h.countP_eq _
  simp only [this, h.length_eq]

/-- C92 is false: the relative diversity of three solutions can be 2. -/
theorem C92_refuted : genomeDiversity (K := ℚ) [{ genome := [true, false] }, { genome := [false, true] }, { genome := [true, false] }] = .ok (.val 2) := by
  rw [diversity_eq 2 _ (by simp) (by simp)]
  simp [timesSelected, Finset.sum_range_succ, npDiv]
  norm_num

/-- C92, degenerate cases: an empty population is an `IndexError`, genomes of length 0 (an empty pool) give NaN. -/
theorem C92_degenerate (pop : List (Indiv K)) :
    (pop = [] → genomeDiversity pop = .error .indexError) ∧ (pop ≠ [] → (∀ σ ∈ pop, σ.genome = []) → genomeDiversity pop = .ok .nan) := by
  refine ⟨fun h => by rw [h]; rfl, fun hne h => ?_⟩
  rw [diversity_eq 0 pop hne fun σ hσ => by rw [h σ hσ]; rfl]
  simp [npDiv]

example : ∃ v : ℚ, genomeDiversity (K := ℚ) [{ genome := [true, false] }, { genome := [true, true] }] = .ok (.val v) ∧ v = 1 / 2 := by
  refine ⟨1 / 2, ?_, rfl⟩
  rw [diversity_eq 2 _ (by simp) (by simp)]
  simp [timesSelected, Finset.sum_range_succ, npDiv]

/-! ### C93 matched training samples -/

/-- Whether some rule matches the sample. -/
def MatchedBySome (pool : List (Rule K d M)) (x : Point K d) : Prop := ∃ ρ ∈ pool, ρ.kind.call ρ.bounds x = true

/-- C93: for rules fitted on the (non-empty) training samples the metric is the proportion of samples matched by at least one of them; without rules it is 0. -/
theorem C93_proportion (pool : List (Rule K d M)) (X : List (Point K d)) (hX : X ≠ []) (hc : ∀ ρ ∈ pool, ConsistentWith ρ X) :
    ∃ v : K, matchedTrainingSamples pool = .ok v ∧ ∀ p : Point K d → Bool, (∀ x ∈ X, p x = true ↔ MatchedBySome pool x) → v * (X.length : K) = ((X.filter p).length : K) := by
  have hpos : 0 < X.length := List.length_pos_of_ne_nil hX
  have hK : (0 : K) < (X.length : K) := by exact_mod_cast hpos
  cases pool with
  | nil =>
    refine ⟨0, rfl, fun p hp => ?_⟩
    have : X.filter p = [] := by
      rw [List.filter_eq_nil_iff]
      intro x hx h
      obtain ⟨ρ, h', _⟩ := (hp x hx).mp h
      simp at h'
    rw [this]; simp
  | cons ρ rest =>
    have hms : (ρ :: rest).mapM Rule.storedMatchSet = .ok ((ρ :: rest).map fun ρ => X.map (ρ.kind.call ρ.bounds)) := by
      refine mapM_ok _ _ _ fun τ hτ => ?_
      obtain ⟨⟨s, hs, hms, _⟩⟩ := hc τ hτ
      unfold Rule.storedMatchSet
      rw [hs, ← hms]
    have hrun : matchedTrainingSamples (ρ :: rest) = .ok ((((List.range X.length).countP fun i =>
        ((ρ :: rest).map fun ρ => X.map (ρ.kind.call ρ.bounds)).any fun m' => m'.getD i false : Nat) : K) / (X.length : K)) := by
      unfold matchedTrainingSamples
      dsimp only
      rw [hms]
      simp only [List.map_cons]
      rw [if_pos (by simp [List.all_eq_true]), if_neg (by rw [List.length_map]; omega), List.length_map]
    refine ⟨_, hrun, fun p hp => ?_⟩
    rw [div_mul_cancel₀ _ hK.ne']
    refine congrArg Nat.cast ?_
    have hcount : ∀ (Y : List (Point K d)) (q : Point K d → Bool), (List.range Y.length).countP (fun i => (Y[i]?.map q).getD false) = (Y.filter q).length := by
      intro Y q
      induction Y with
      | nil => rfl
      | cons y ys ih =>
        rw [List.length_cons, List.range_succ_eq_map, List.countP_cons, List.countP_map]
        simp only [List.getElem?_cons_zero, Option.map_some, Option.getD_some]
        rw [show ((fun i => (Option.map q (y :: ys)[i]?).getD false) ∘ Nat.succ) = fun i => (Option.map q ys[i]?).getD false from by funext i; simp, ih, List.filter_cons]
        split_ifs <;> simp
    rw [← hcount X p]
    refine List.countP_congr fun i hi => ?_
    have hi' : i < X.length := List.mem_range.mp hi
    rw [List.getElem?_eq_getElem hi']
    simp only [Option.map_some, Option.getD_some]
    rw [hp _ (List.getElem_mem hi')]
    unfold MatchedBySome
    simp only [List.any_eq_true, List.mem_map]
    constructor
    · rintro ⟨m, ⟨τ, hτ, rfl⟩, h⟩
      refine ⟨τ, hτ, ?_⟩
      simpa [List.getD_eq_getElem?_getD, List.getElem?_eq_getElem hi'] using h
    · rintro ⟨τ, hτ, h⟩
      refine ⟨_, ⟨τ, hτ, rfl⟩, ?_⟩
      simpa [List.getD_eq_getElem?_getD, List.getElem?_eq_getElem hi'] using h

/-- C93: the metric lies between 0 and 1, is 1 exactly if every training sample is matched by some rule, and does not decrease when rules are added to the pool. -/
theorem C93_bounds (pool more : List (Rule K d M)) (X : List (Point K d)) (hX : X ≠ []) (hc : ∀ ρ ∈ pool ++ more, ConsistentWith ρ X) :
    ∃ v w : K, matchedTrainingSamples pool = .ok v ∧ matchedTrainingSamples (pool ++ more) = .ok w ∧ 0 ≤ v ∧ v ≤ w ∧ w ≤ 1 ∧ (v = 1 ↔ ∀ x ∈ X, MatchedBySome pool x) := by
  classical
  have hpos : 0 < X.length := List.length_pos_of_ne_nil hX
  have hK : (0 : K) < (X.length : K) := by exact_mod_cast hpos
  obtain ⟨v, hv, hv'⟩ := C93_proportion pool X hX fun ρ h => hc ρ (List.mem_append_left _ h)
  obtain ⟨w, hw, hw'⟩ := C93_proportion (pool ++ more) X hX hc
  have e1 := hv' (fun x => decide (MatchedBySome pool x)) (by simp)
  have e2 := hw' (fun x => decide (MatchedBySome (pool ++ more) x)) (by simp)
  refine ⟨v, w, hv, hw, ?_, ?_, ?_, ?_⟩
  · refine le_of_mul_le_mul_right ?_ hK
    rw [e1, zero_mul]; exact Nat.cast_nonneg _
  · refine le_of_mul_le_mul_right ?_ hK
    rw [e1, e2, Nat.cast_le, ← List.countP_eq_length_filter, ← List.countP_eq_length_filter]
    refine List.countP_mono_left fun x _ h => ?_
    simp only [decide_eq_true_eq] at h ⊢
    obtain ⟨ρ, h1, h2⟩ := h
    exact ⟨ρ, List.mem_append_left _ h1, h2⟩
  · refine le_of_mul_le_mul_right ?_ hK
    rw [e2, one_mul, Nat.cast_le]
    exact List.length_filter_le _ _
  · constructor
    · intro h1
      rw [h1, one_mul, Nat.cast_inj] at e1
      have := List.length_filter_eq_length_iff.mp e1.symm
      intro x hx
      simpa using this x hx
    · intro hall
      rw [List.filter_eq_self.mpr fun x hx => by simpa using hall x hx] at e1
      exact mul_right_cancel₀ hK.ne' (by rw [e1, one_mul])

/-- Example: a rule matching two of three samples. -/
example : (do let ρ ← (intervalRule 0 1).fit meanLearner negErr [![0], ![1], ![2]] [0, 2, 4]
              matchedTrainingSamples [ρ]) = Except.ok (2 / 3) := by decide +kernel

/-! ### C94 combined loggers -/

section Combined

variable {P S In V : Type}

theorem forall₂_split {α β γ : Type} (R : α → β → Prop) (T : β → γ → Prop) (l : List α) (l' : List γ) :
    List.Forall₂ (fun a c => ∃ b, R a b ∧ T b c) l l' ↔ ∃ m, List.Forall₂ R l m ∧ List.Forall₂ T m l' := by
  constructor
  · intro h
    induction h with
    | nil => exact ⟨[], .nil, .nil⟩
    | cons h _ ih =>
      obtain ⟨b, h1, h2⟩ := h
      obtain ⟨m, h3, h4⟩ := ih
      exact ⟨b :: m, .cons h1 h3, .cons h2 h4⟩
  · rintro ⟨m, h1, h2⟩
    induction h1 generalizing l' with
    | nil => cases h2; exact .nil
    | cons h _ ih =>
      cases h2 with
      | cons h2 h3 => exact .cons ⟨_, h, h2⟩ (ih _ h3)

theorem forall₂_iff {α β : Type} {R R' : α → β → Prop} {l : List α} {l' : List β} (h : ∀ a b, R a b ↔ R' a b) : List.Forall₂ R l l' ↔ List.Forall₂ R' l l' :=
  ⟨fun g => g.imp fun a b => (h a b).mp, fun g => g.imp fun a b => (h a b).mpr⟩

theorem forLoggers_iff (f : S → Except PyErr S) (l l' : List (String × S)) :
    forLoggers f l = .ok l' ↔ List.Forall₂ (fun a b => b.1 = a.1 ∧ f a.2 = .ok b.2) l l' := by
  unfold forLoggers
  rw [mapM_ok_iff]
  refine forall₂_iff fun a b => ⟨fun h => ?_, fun ⟨h1, h2⟩ => by rw [h2, ← h1]⟩
  split at h
  · cases h
  · rename_i s hs
    cases h
    exact ⟨rfl, hs⟩

theorem combined_iterAll (ops : LoggerOps P S In) (iters : List In) (k : Nat) (l l' : List (String × S)) :
    (combinedOps ops).iterAll k iters l = .ok l' ↔ List.Forall₂ (fun a b => b.1 = a.1 ∧ ops.iterAll k iters a.2 = .ok b.2) l l' := by
  induction iters generalizing k l with
  | nil =>
    have : (fun (a b : String × S) => b.1 = a.1 ∧ ops.iterAll k [] a.2 = .ok b.2) = Eq := by
      funext a b
      refine propext ⟨fun ⟨h1, h2⟩ => ?_, fun h => ⟨by rw [h], by rw [h]; rfl⟩⟩
      exact Prod.ext h1.symm (Except.ok.inj h2)
    rw [this, List.forall₂_eq_eq_eq]
    exact ⟨fun h => Except.ok.inj h, fun h => by rw [h]; rfl⟩
  | cons i is ih =>
    have : (fun (a b : String × S) => b.1 = a.1 ∧ ops.iterAll k (i :: is) a.2 = .ok b.2) =
        fun a b => ∃ c : String × S, (c.1 = a.1 ∧ ops.iter i k a.2 = .ok c.2) ∧ (b.1 = c.1 ∧ ops.iterAll (k + 1) is c.2 = .ok b.2) := by
      funext a b
      refine propext ⟨fun ⟨h1, h2⟩ => ?_, ?_⟩
      · unfold LoggerOps.iterAll at h2
        split at h2
        · cases h2
        · rename_i s hs
          exact ⟨(a.1, s), ⟨rfl, hs⟩, h1, h2⟩
      · rintro ⟨c, ⟨h1, h2⟩, h3, h4⟩
        exact ⟨h3.trans h1, by unfold LoggerOps.iterAll; rw [h2]; exact h4⟩
    rw [this, forall₂_split]
    conv_lhs => unfold LoggerOps.iterAll
    constructor
    · intro h
      split at h
      · cases h
      · rename_i l1 h1
        exact ⟨l1, (forLoggers_iff _ _ _).mp h1, (ih _ _).mp h⟩
    · rintro ⟨m, h1, h2⟩
      rw [show (combinedOps ops).iter i k l = .ok m from (forLoggers_iff _ _ _).mpr h1]
      exact (ih _ _).mpr h2

/-- C94: training with a combined logger leaves every one of its loggers (under its name, in the given order) in the state it would have if it were the only logger of the same training, and training
succeeds with the combined logger exactly if it would with each of them alone. -/
theorem C94_combined (ops : LoggerOps P S In) (loggers : List (String × P)) (start : In) (iters : List In) (fin : In) (states : List (String × S)) :
    (combinedOps ops).run loggers start iters fin = .ok states ↔ List.Forall₂ (fun a b => b.1 = a.1 ∧ ops.run a.2 start iters fin = .ok b.2) loggers states := by
  have : (fun (a : String × P) (b : String × S) => b.1 = a.1 ∧ ops.run a.2 start iters fin = .ok b.2) =
      fun a b => ∃ c : String × S, (c.1 = a.1 ∧ ops.init a.2 start = .ok c.2) ∧ ∃ e : String × S, (e.1 = c.1 ∧ ops.iterAll 0 iters c.2 = .ok e.2) ∧ (b.1 = e.1 ∧ ops.final fin e.2 = .ok b.2) := by
    funext a b
    refine propext ⟨fun ⟨h1, h2⟩ => ?_, ?_⟩
    · unfold LoggerOps.run at h2
      split at h2
      · cases h2
      · rename_i s hs
        split at h2
        · cases h2
        · rename_i s' hs'
          exact ⟨(a.1, s), ⟨rfl, hs⟩, (a.1, s'), ⟨rfl, hs'⟩, h1, h2⟩
    · rintro ⟨c, ⟨h1, h2⟩, e, ⟨h3, h4⟩, h5, h6⟩
      refine ⟨h5.trans (h3.trans h1), ?_⟩
      unfold LoggerOps.run
      rw [h2]
      dsimp only
      rw [h4]
      exact h6
  rw [this, forall₂_split]
  have hinit : ∀ m, (combinedOps ops).init loggers start = .ok m ↔ List.Forall₂ (fun (a : String × P) (c : String × S) => c.1 = a.1 ∧ ops.init a.2 start = .ok c.2) loggers m := by
    intro m
    unfold combinedOps
    dsimp only
    rw [mapM_ok_iff]
    refine forall₂_iff fun a b => ⟨fun h => ?_, fun ⟨h1, h2⟩ => by rw [h2, ← h1]⟩
    split at h
    · cases h
    · rename_i s hs
      cases h
      exact ⟨rfl, hs⟩
  conv_lhs => unfold LoggerOps.run
  constructor
  · intro h
    split at h
    · cases h
    · rename_i l1 h1
      split at h
      · cases h
      · rename_i l2 h2
        exact ⟨l1, (hinit _).mp h1, (forall₂_split _ _ _ _).mpr ⟨l2, (combined_iterAll ops iters 0 l1 l2).mp h2, (forLoggers_iff _ _ _).mp h⟩⟩
  · rintro ⟨l1, h1, h2⟩
    obtain ⟨l2, h2, h3⟩ := (forall₂_split _ _ _ _).mp h2
    rw [(hinit _).mpr h1]
    dsimp only
    rw [(combined_iterAll ops iters 0 l1 l2).mpr h2]
    exact (forLoggers_iff _ _ _).mpr h3

/-- C94: if one of the loggers fails, so does the combined logger. -/
theorem C94_failure (ops : LoggerOps P S In) (loggers : List (String × P)) (start : In) (iters : List In) (fin : In) (q : String × P) (hq : q ∈ loggers) (e : PyErr)
    (he : ops.run q.2 start iters fin = .error e) : ∃ e', (combinedOps ops).run loggers start iters fin = .error e' := by
  cases h : (combinedOps ops).run loggers start iters fin with
  | error e' => exact ⟨e', rfl⟩
  | ok states =>
    obtain ⟨i, hi, rfl⟩ := List.getElem_of_mem hq
    have h2 := (C94_combined ops loggers start iters fin states).mp h
    have := (h2.get hi (h2.length_eq ▸ hi)).2
    rw [List.get_eq_getElem, he] at this
    cases this

/-- Example: two loggers that remember what they saw (the second from its parameter on). -/
example : (combinedOps (S := List Nat) ⟨fun p i => .ok [p, i], fun i k s => .ok (s ++ [i + k]), fun i s => .ok (s ++ [i])⟩).run [("a", 1), ("b", 2)] 10 [20, 30] 40 =
    .ok [("a", [1, 10, 20, 31, 40]), ("b", [2, 10, 20, 31, 40])] := by decide +kernel

/-! ### C95 parameters of combined loggers -/

theorem replaceLogger_unique (name : String) (new : P) (l : List (String × P)) (hn : (l.map Prod.fst).Nodup) :
    replaceLogger name new l = l.map fun q => if q.1 = name then (name, new) else q := by
  induction l with
  | nil => rfl
  | cons q rest ih =>
    rw [List.map_cons, List.nodup_cons] at hn
    unfold replaceLogger
    rw [List.map_cons]
    split_ifs with h
    · congr 1
      refine (List.map_id _).symm.trans (List.map_congr_left fun r hr => ?_)
      rw [if_neg]
      · rfl
      · intro h'
        exact hn.1 (List.mem_map.mpr ⟨r, hr, by rw [h', h]⟩)
    · rw [ih hn.2]

theorem map_fst_replace (name : String) (new : P) (l : List (String × P)) : (l.map fun q => if q.1 = name then (name, new) else q).map Prod.fst = l.map Prod.fst := by
  rw [List.map_map]
  refine List.map_congr_left fun q _ => ?_
  simp only [Function.comp_apply]
  split_ifs with h
  · exact h.symm
  · rfl

/-- The logger a name has after replacing: the last replacement (keyword arguments are unique, so there is at most one), or the old one. -/
theorem fold_replace (repl : List (String × P)) (hr : (repl.map Prod.fst).Nodup) (l : List (String × P)) (hn : (l.map Prod.fst).Nodup) :
    repl.foldl (fun l r => replaceLogger r.1 r.2 l) l = l.map fun q => (q.1, (repl.lookup q.1).getD q.2) := by
  induction repl generalizing l with
  | nil => simp
  | cons r rest ih =>
    rw [List.map_cons, List.nodup_cons] at hr
    rw [List.foldl_cons, replaceLogger_unique _ _ _ hn, ih hr.2 _ (by rw [map_fst_replace]; exact hn), List.map_map]
    refine List.map_congr_left fun q _ => ?_
    simp only [Function.comp_apply]
    split_ifs with h
    · have h1 : rest.lookup r.1 = none := by
        rw [List.lookup_eq_none_iff]
        intro p hp
        simp only [bne_iff_ne, ne_eq]
        intro h'
        exact hr.1 (List.mem_map.mpr ⟨p, hp, h'.symm⟩)
      rw [h1, List.lookup_cons, h, beq_self_eq_true]; rfl
    · rw [List.lookup_cons, beq_false_of_ne h]

/-- C95: `set_params` with names of loggers of the combination (unique, as documented) changes exactly the named loggers and keeps names and order: a logger given by its name replaces the old one, and
parameters `name__parameter` are passed to the (possibly new) logger of that name; all others stay. -/
theorem C95_set_params (setP : P → List (String × V) → Except PyErr P) (loggers : List (String × P)) (hn : (loggers.map Prod.fst).Nodup) (repl : List (String × P))
    (hr : (repl.map Prod.fst).Nodup) (nested : List (String × String × V)) (h1 : ∀ r ∈ repl, r.1 ∈ loggers.map Prod.fst) (h2 : ∀ n ∈ nested, n.1 ∈ loggers.map Prod.fst)
    (old : List (String × P)) (arg : Option (List (String × P))) (ha : arg = some loggers ∨ arg = none ∧ old = loggers) (out : List (String × P)) :
    setLoggerParams setP old arg repl nested = .ok out ↔ List.Forall₂ (fun q q' : String × P => q'.1 = q.1 ∧
      ∃ p, (∀ new, (q.1, new) ∈ repl → p = new) ∧ (q.1 ∉ repl.map Prod.fst → p = q.2) ∧
        (((nested.filter fun n => decide (n.1 = q.1)).map Prod.snd = [] ∧ q'.2 = p) ∨
         ((nested.filter fun n => decide (n.1 = q.1)).map Prod.snd ≠ [] ∧ setP p ((nested.filter fun n => decide (n.1 = q.1)).map Prod.snd) = .ok q'.2))) loggers out := by
  have hlook : ∀ q : String × P, ∀ p, ((∀ new, (q.1, new) ∈ repl → p = new) ∧ (q.1 ∉ repl.map Prod.fst → p = q.2)) ↔ p = (repl.lookup q.1).getD q.2 := by
    intro q p
    cases hl : repl.lookup q.1 with
    | none =>
      have hnot : q.1 ∉ repl.map Prod.fst := by
        intro h
        obtain ⟨r, hr', he⟩ := List.mem_map.mp h
        have := List.lookup_eq_none_iff.mp hl r hr'
        simp [he] at this
      simp only [Option.getD_none]
      exact ⟨fun h => h.2 hnot, fun h => ⟨fun new hnew => absurd (List.mem_map.mpr ⟨_, hnew, rfl⟩) hnot, fun _ => h⟩⟩
    | some new =>
      obtain ⟨l1, l2, he, _⟩ := List.lookup_eq_some_iff.mp hl
      have hmem : (q.1, new) ∈ repl := by rw [he]; simp
      simp only [Option.getD_some]
      refine ⟨fun h => h.1 new hmem, fun h => ⟨fun new' hnew' => ?_, fun hnot => absurd (List.mem_map.mpr ⟨_, hmem, rfl⟩) hnot⟩⟩
      have := List.inj_on_of_nodup_map hr hmem hnew' rfl
      rw [h, (Prod.mk.inj this).2]
  have hbase : arg.getD old = loggers := by
    rcases ha with rfl | ⟨rfl, rfl⟩ <;> rfl
  unfold setLoggerParams
  rw [hbase]
  dsimp only
  rw [List.filter_eq_self.mpr fun r h => by simpa using h1 r h, fold_replace repl hr loggers hn, if_neg, if_neg, List.mapM_map, mapM_ok_iff]
  · refine forall₂_iff fun q q' => ?_
    simp only [Function.comp_apply]
    refine ⟨fun h => ?_, ?_⟩
    · cases hs : (nested.filter fun n => decide (n.1 = q.1)).map Prod.snd with
      | nil =>
        rw [hs] at h
        cases h
        obtain ⟨g1, g2⟩ := (hlook q _).mpr rfl
        exact ⟨rfl, _, g1, g2, .inl ⟨rfl, rfl⟩⟩
      | cons a as =>
        rw [hs] at h
        dsimp only at h
        split at h
        · cases h
        · rename_i p hp
          cases h
          obtain ⟨g1, g2⟩ := (hlook q _).mpr rfl
          exact ⟨rfl, _, g1, g2, .inr ⟨by simp, hp⟩⟩
    · rintro ⟨g0, p, g1, g2, g3⟩
      have hp := (hlook q p).mp ⟨g1, g2⟩
      subst hp
      cases hs : (nested.filter fun n => decide (n.1 = q.1)).map Prod.snd with
      | nil =>
        rw [hs] at g3
        rcases g3 with ⟨_, g3⟩ | ⟨g3, _⟩
        · exact congrArg Except.ok (Prod.ext g0.symm g3.symm)
        · exact absurd rfl g3
      | cons a as =>
        rw [hs] at g3
        rcases g3 with ⟨g3, _⟩ | ⟨_, g3⟩
        · cases g3
        · dsimp only
          rw [g3, ← g0]
  · simp only [List.any_eq_true, decide_eq_true_eq, not_exists, not_and, not_not]
    exact h2
  · simp only [Bool.or_eq_true, List.any_eq_true, decide_eq_true_eq, Bool.and_eq_true, not_or, not_exists, not_and, not_not]
    exact ⟨h1, fun n hn' h => absurd (h2 n hn') h⟩

/-- C95: names that are neither `loggers` nor the name of a logger are rejected. -/
theorem C95_unknown (setP : P → List (String × V) → Except PyErr P) (loggers repl : List (String × P)) (nested : List (String × String × V))
    (old : List (String × P)) (arg : Option (List (String × P))) (ha : arg = some loggers ∨ arg = none ∧ old = loggers)
    (h : (∃ r ∈ repl, r.1 ∉ loggers.map Prod.fst) ∨ ∃ n ∈ nested, n.1 ∉ loggers.map Prod.fst ∧ n.1 ≠ "loggers") :
    setLoggerParams setP old arg repl nested = .error .valueError := by
  have hbase : arg.getD old = loggers := by
    rcases ha with rfl | ⟨rfl, rfl⟩ <;> rfl
  unfold setLoggerParams
  rw [hbase]
  dsimp only
  rw [if_pos]
  simp only [Bool.or_eq_true, List.any_eq_true, decide_eq_true_eq, Bool.and_eq_true]
  exact h

/-- C95: `get_params` shows the logger of a name. -/
theorem C95_get_params (loggers : List (String × P)) (hn : (loggers.map Prod.fst).Nodup) (name : String) (p : P) : getLogger loggers name = some p ↔ (name, p) ∈ loggers := by
  unfold getLogger
  constructor
  · intro h
    obtain ⟨q, h1, rfl⟩ := Option.map_eq_some_iff.mp h
    have h2 := List.find?_some h1
    have h3 := List.mem_of_find?_eq_some h1
    simp only [decide_eq_true_eq] at h2
    rw [← h2]
    exact List.mem_reverse.mp h3
  · intro h
    cases hf : loggers.reverse.find? fun q => decide (q.1 = name) with
    | none =>
      have := List.find?_eq_none.mp hf (name, p) (List.mem_reverse.mpr h)
      simp at this
    | some q =>
      have h2 := List.find?_some hf
      have h3 := List.mem_reverse.mp (List.mem_of_find?_eq_some hf)
      simp only [decide_eq_true_eq] at h2
      have := List.inj_on_of_nodup_map hn h h3 h2.symm
      rw [← this]; rfl

/-- Example: replace one logger, set a parameter of the other. -/
example : setLoggerParams (P := Nat) (V := Nat) (fun p l => .ok (l.foldl (fun p v => p + v.2) p)) [("a", 1), ("b", 2)] none [("b", 7)] [("a", "x", 10), ("b", "x", 3)] =
    .ok [("a", 11), ("b", 10)] := by decide +kernel

/-- Example: a new list of loggers together with a parameter of one of them. -/
example : setLoggerParams (P := Nat) (V := Nat) (fun p l => .ok (l.foldl (fun p v => p + v.2) p)) [("a", 1), ("b", 2)] (some [("c", 5)]) [] [("c", "x", 10)] =
    .ok [("c", 15)] := by decide +kernel

end Combined

end Suprb
