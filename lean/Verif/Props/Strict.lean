import Verif.Props.DefaultSave
import Verif.Props.Influence
import Verif.Props.Recombine
import Mathlib.Analysis.Complex.ExponentialBounds

/-!
# Claims C142 (strictness of the acceptance) and C143 (capped experience); further cases of C118 and C119
-/

set_option autoImplicit false
set_option linter.unusedSectionVars false

namespace Suprb

open _root_.Spec (Pairs Point)

variable {K : Type} [Field K] [LinearOrder K] [IsStrictOrderedRing K] {d : Nat} {M : Type}

/-! ### C142 a stricter acceptance accepts fewer rules -/

/-- The error of a rule (if it was ever trained) is at least `1e-4`, as `C15_history` shows for every history of fits. -/
def Rule.ErrorFloored (ρ : Rule K d M) : Prop := ∀ s, ρ.st = some s → ((1 / 10000 : K) : WithTop K) ≤ s.error

theorem sumSq_nonneg (l : List K) : 0 ≤ (l.map (· ^ 2)).sum := by
  refine List.sum_nonneg fun v hv => ?_
  obtain ⟨t, _, rfl⟩ := List.mem_map.mp hv
  exact sq_nonneg _

theorem Rule.ErrorFloored.pos {ρ : Rule K d M} (h : ρ.ErrorFloored) {s : RuleState K} (hs : ρ.st = some s) {t : K} (ht : s.error ≤ ((t : K) : WithTop K)) : 0 < t := by
  have := (h s hs).trans ht
  rw [WithTop.coe_le_coe] at this
  have : (0 : K) < 1 / 10000 := by norm_num
  linarith

/-- C142: a rule that is accepted with `beta` is accepted with every smaller non-negative `beta`. -/
theorem C142_variance (beta beta' : K) (h0 : 0 ≤ beta') (h : beta' ≤ beta) (y : List K) (ρ : Rule K d M) (hf : ρ.ErrorFloored) (hacc : acceptVariance beta y ρ = .ok true) :
    acceptVariance beta' y ρ = .ok true := by
  unfold acceptVariance at hacc ⊢
  cases hs : ρ.st with
  | none => rw [hs] at hacc; cases hacc
  | some s =>
    rw [hs] at hacc
    dsimp only at hacc ⊢
    split at hacc
    · cases hacc
    rename_i hexp
    rw [if_neg hexp]
    split at hacc
    · cases hacc
    rename_i hlen
    rw [if_neg hlen]
    have hsq := sumSq_nonneg (compress y s.matchSet)
    generalize hS : ((compress y s.matchSet).map (· ^ 2)).sum = S at hacc hsq ⊢
    have hn : (0 : K) ≤ ((compress y s.matchSet).length : K) := Nat.cast_nonneg _
    generalize ((compress y s.matchSet).length : K) = n at hacc hn ⊢
    split at hacc
    · rename_i hz
      rw [if_pos (le_antisymm (hz ▸ mul_le_mul_of_nonneg_left h hn) (mul_nonneg hn h0))]
      exact hacc
    · rename_i hz
      rw [Except.ok.injEq, decide_eq_true_eq] at hacc
      have hpos : 0 < S / (n * beta) := hf.pos hs hacc
      have hb : 0 < n * beta := lt_of_le_of_ne (mul_nonneg hn (h0.trans h)) (Ne.symm hz)
      have hSpos : 0 < S := by
        rcases hsq.eq_or_lt with h' | h'
        · rw [← h', zero_div] at hpos; exact absurd hpos (lt_irrefl _)
        · exact h'
      by_cases hz' : n * beta' = 0
      · rw [if_pos hz']
        congr 1
        exact decide_eq_true hSpos.ne'
      · rw [if_neg hz']
        congr 1
        refine decide_eq_true (hacc.trans ?_)
        rw [WithTop.coe_le_coe]
        have hb' : 0 < n * beta' := lt_of_le_of_ne (mul_nonneg hn h0) (Ne.symm hz')
        exact div_le_div_of_nonneg_left hsq hb' (mul_le_mul_of_nonneg_left h hn)

/-- C142: a rule that is accepted with a maximal error is accepted with every larger one. -/
theorem C142_max_error (e e' : K) (h : e ≤ e') (ρ : Rule K d M) (hacc : acceptMaxError e ρ = .ok true) : acceptMaxError e' ρ = .ok true := by
  unfold acceptMaxError at hacc ⊢
  cases hs : ρ.st with
  | none => rw [hs] at hacc; cases hacc
  | some s =>
    rw [hs] at hacc
    dsimp only at hacc ⊢
    rw [Except.ok.injEq, decide_eq_true_eq] at hacc
    congr 1
    exact decide_eq_true (hacc.trans (WithTop.coe_le_coe.mpr h))

/-- C142: from the same candidates, a stricter acceptance keeps some of the rules that a laxer one keeps, in the same order. -/
theorem C142_kept {R : Type} (strict lax : R → Except PyErr Bool) (h : ∀ r, strict r = .ok true → lax r = .ok true) (cs : List (Option R)) (kept kept' : List R)
    (h1 : filterInvalid strict cs = .ok kept) (h2 : filterInvalid lax cs = .ok kept') : kept.Sublist kept' := by
  induction cs generalizing kept kept' with
  | nil => cases h1; cases h2; exact List.Sublist.refl _
  | cons c cs ih =>
    cases c with
    | none => exact ih _ _ h1 h2
    | some r =>
      unfold filterInvalid at h1 h2
      cases hs : strict r with
      | error e => rw [hs] at h1; cases h1
      | ok b =>
        rw [hs] at h1
        cases b with
        | false =>
          dsimp only at h1
          cases hl : lax r with
          | error e => rw [hl] at h2; cases h2
          | ok b' =>
            rw [hl] at h2
            cases b' with
            | false => exact ih _ _ h1 h2
            | true =>
              dsimp only at h2
              cases hr : filterInvalid lax cs with
              | error e => rw [hr] at h2; cases h2
              | ok l => rw [hr] at h2; cases h2; exact (ih _ _ h1 hr).cons _
        | true =>
          rw [h r hs] at h2
          dsimp only at h1 h2
          cases hr : filterInvalid strict cs with
          | error e => rw [hr] at h1; cases h1
          | ok l =>
            rw [hr] at h1; cases h1
            cases hr' : filterInvalid lax cs with
            | error e => rw [hr'] at h2; cases h2
            | ok l' => rw [hr'] at h2; cases h2; exact (ih _ _ hr hr').cons_cons _

/-- C142: with `beta = 0`, exactly the trained rules are accepted that match a sample whose target is not zero; with a negative `beta` no rule is accepted. -/
theorem C142_extremes (L : Learner K d M) (X : List (Point K d)) (y : List K) (hxy : y.length = X.length) (ρ : Rule K d M) (ht : ρ.TrainedOn L X y) :
    acceptVariance 0 y ρ = .ok (decide (∃ q ∈ matchedData ρ X y, q.2 ≠ 0)) ∧ ∀ beta : K, beta < 0 → acceptVariance beta y ρ = .ok false := by
  obtain ⟨⟨s, hs, hms, hexp, hrest⟩, hdesc⟩ := ht
  have hcy : compress y s.matchSet = (matchedData ρ X y).map Prod.snd := by
    rw [hms]; exact compress_zip _ X y hxy
  have hexp' : s.experience = (matchedData ρ X y).length := by
    rw [hexp, filter_zip_fst _ X y hxy, List.length_map]; rfl
  have hlen : ¬ s.matchSet.length ≠ y.length := by rw [hms]; simp [hxy]
  by_cases hex : ∃ x ∈ X, ρ.kind.call ρ.bounds x = true
  · obtain ⟨s', m, hs', _, _, herr⟩ := hdesc hex
    rw [hs] at hs'; cases hs'
    have hpos : ¬ s.experience < 1 := by
      rw [hexp]
      obtain ⟨x, hx, hxm⟩ := hex
      have := List.length_pos_of_mem (List.mem_filter.mpr ⟨hx, hxm⟩ : x ∈ X.filter (ρ.kind.call ρ.bounds))
      omega
    constructor
    · unfold acceptVariance
      rw [hs]
      dsimp only
      rw [if_neg hpos, if_neg hlen, if_pos (mul_zero _), hcy]
      congr 1
      rw [decide_eq_decide, List.map_map]
      constructor
      · intro h
        by_contra hno
        push Not at hno
        refine h (List.sum_eq_zero fun v hv => ?_)
        obtain ⟨q, hq, rfl⟩ := List.mem_map.mp hv
        simp [hno q hq]
      · rintro ⟨q, hq, hne⟩ h0
        have hall : ∀ D : List (Point K d × K), q ∈ D → (D.map ((· ^ 2) ∘ Prod.snd)).sum = 0 → False := by
          intro D
          induction D with
          | nil => intro h; cases h
          | cons p D ih =>
            intro hq h0
            rw [List.map_cons, List.sum_cons] at h0
            have h1 : 0 ≤ (D.map ((· ^ 2) ∘ Prod.snd)).sum := by
              refine List.sum_nonneg fun v hv => ?_
              obtain ⟨t, _, rfl⟩ := List.mem_map.mp hv
              exact sq_nonneg _
            have h2 : 0 ≤ p.2 ^ 2 := sq_nonneg _
            simp only [Function.comp] at h0 h1 ih
            rcases List.mem_cons.mp hq with rfl | hq
            · have : q.2 ^ 2 = 0 := by linarith
              exact hne (by simpa using this)
            · exact ih hq (by linarith)
        exact hall _ hq h0
    · intro beta hb
      unfold acceptVariance
      rw [hs]
      dsimp only
      have hn : (0 : K) < ((compress y s.matchSet).length : K) := by
        rw [hcy, List.length_map, ← hexp']
        exact_mod_cast (by omega : 0 < s.experience)
      rw [if_neg hpos, if_neg hlen, if_neg (mul_neg_of_pos_of_neg hn hb).ne]
      congr 1
      refine decide_eq_false fun h => ?_
      rw [herr, WithTop.coe_le_coe] at h
      have h1 := (le_max_right _ _).trans h
      have h2 : ((compress y s.matchSet).map (· ^ 2)).sum / (((compress y s.matchSet).length : K) * beta) ≤ 0 :=
        div_nonpos_of_nonneg_of_nonpos (sumSq_nonneg _) (mul_neg_of_pos_of_neg hn hb).le
      have h3 : (0 : K) < 1 / 10000 := by norm_num
      linarith
  · have hz : s.experience = 0 := by
      rw [hexp, List.length_eq_zero_iff, List.filter_eq_nil_iff]
      exact fun x hx h => hex ⟨x, hx, h⟩
    have hall : ∀ beta : K, acceptVariance beta y ρ = .ok false := by
      intro beta
      unfold acceptVariance
      rw [hs]
      dsimp only
      rw [if_pos (by omega)]
    refine ⟨?_, fun beta _ => hall beta⟩
    rw [hall]
    congr 1
    symm
    refine decide_eq_false ?_
    rintro ⟨q, hq, _⟩
    have : matchedData ρ X y = [] := List.length_eq_zero_iff.mp (by rw [← hexp', hz])
    rw [this] at hq
    cases hq

/-! ### C143 capped experience -/

/-- `x` lies within the (possibly missing) bounds. -/
def Spec.Within (lo hi : Option K) (x : K) : Prop := (∀ l, lo = some l → l ≤ x) ∧ ∀ h, hi = some h → x ≤ h

theorem clipOpt_within (lo hi : Option K) (x : K) (h : Spec.Within lo hi x) : clipOpt lo hi x = x := by
  unfold clipOpt
  cases lo with
  | none => cases hi with
    | none => rfl
    | some u => exact min_eq_left (h.2 u rfl)
  | some l =>
    have h1 : max x l = x := max_eq_left (h.1 l rfl)
    cases hi with
    | none => exact h1
    | some u => dsimp only; rw [h1]; exact min_eq_left (h.2 u rfl)

theorem clipOpt_above (lo : Option K) (u x : K) (h : u ≤ x) : clipOpt lo (some u) x = u := by
  unfold clipOpt
  cases lo with
  | none => exact min_eq_right h
  | some l => exact min_eq_right (h.trans (le_max_left _ _))

theorem clipOpt_below (l : K) (hi : Option K) (x : K) (h : x ≤ l) : clipOpt (some l) hi x = clipOpt (some l) hi l := by
  unfold clipOpt
  cases hi with
  | none => dsimp only; rw [max_eq_right h, max_self]
  | some u => dsimp only; rw [max_eq_right h, max_self]

theorem clipOpt_range (l u x : K) (h : l ≤ u) : l ≤ clipOpt (some l) (some u) x ∧ clipOpt (some l) (some u) x ≤ u :=
  ⟨le_min (le_max_right _ _) h, min_le_right _ _⟩

/-- The lower and upper limit that a way of calculating the experience imposes for `dim` features. -/
def Spec.Limits (c : ExpCalc K) (dim : Nat) (lo hi : Option K) : Prop :=
  c = .cap lo hi ∨ ∃ lo' hi', c = .capDim lo' hi' ∧ lo = lo'.map (· * (dim : K)) ∧ hi = hi'.map (· * (dim : K))

theorem Spec.Limits.value {c : ExpCalc K} {dim : Nat} {lo hi : Option K} (h : Spec.Limits c dim lo hi) (e : Nat) : c.value dim e = clipOpt lo hi (e : K) := by
  rcases h with rfl | ⟨lo', hi', rfl, rfl, rfl⟩ <;> rfl

theorem tau_congr (P P' : MixParams K) (ρ : Rule K d M) (h : ∀ s, ρ.st = some s → P.expCalc.value d s.experience * P.weight = P'.expCalc.value d s.experience * P'.weight) :
    ρ.tau P = ρ.tau P' := by
  unfold Rule.tau
  cases hs : ρ.st with
  | none => rfl
  | some s => dsimp only; rw [h s hs]

/-- C143: while the experience of every rule lies within the limits (lower and upper bound, or these times the number of features), predictions are the same as without limits, for every filter that returns
some of the selected rules. -/
theorem C143_inside (L : Learner K d M) (c : ExpCalc K) (lo hi : Option K) (hc : Spec.Limits c d lo hi) (w : K) (filt : SubFilter K d M)
    (hfilt : ∀ sub sub', filt sub = .ok sub' → ∀ ρ ∈ sub', ρ ∈ sub) (cache : Bool) (σ : Solution K d M)
    (h : ∀ ρ ∈ σ.pool, ∀ s, ρ.st = some s → Spec.Within lo hi (s.experience : K)) (X : List (Point K d)) :
    σ.predict L ⟨c, w⟩ filt cache X = σ.predict L ⟨.plain, w⟩ filt cache X := by
  unfold Solution.predict
  cases hsub : σ.subpopulation with
  | error e => rfl
  | ok sub =>
    have hmem : ∀ ρ ∈ sub, ρ ∈ σ.pool := by
      unfold Solution.subpopulation at hsub
      split at hsub
      · cases hsub; exact fun ρ hρ => mem_of_mem_compress hρ
      · cases hsub
    dsimp only
    unfold mixing
    split
    · rfl
    cases hf : filt sub with
    | error e => rfl
    | ok sub' =>
      dsimp only
      unfold mixRules
      rw [mapM_congr (Rule.tau ⟨c, w⟩) (Rule.tau ⟨.plain, w⟩) sub' fun ρ hρ => tau_congr _ _ ρ fun s hs => by
        show c.value d s.experience * w = (s.experience : K) * w
        rw [hc.value, clipOpt_within _ _ _ (h ρ (hmem ρ (hfilt _ _ hf ρ hρ)) s hs)]]

/-- The two rules differ at most in their experience, and either it is the same, or both have at least the upper limit, or both at most the lower limit. -/
def Spec.SameWithin (lo hi : Option K) (ρ ρ' : Rule K d M) : Prop :=
  ∃ s e, ρ.st = some s ∧ ρ' = { ρ with st := some { s with experience := e } } ∧
    (e = s.experience ∨ (∃ u, hi = some u ∧ u ≤ (s.experience : K) ∧ u ≤ (e : K)) ∨ ∃ l, lo = some l ∧ (s.experience : K) ≤ l ∧ (e : K) ≤ l)

theorem mapM_forall₂ {α β : Type} {r : α → α → Prop} (f g : α → Except PyErr β) {l l' : List α} (h : List.Forall₂ r l l') (hfg : ∀ a b, r a b → f a = g b) : l.mapM f = l'.mapM g := by
  induction h with
  | nil => rfl
  | cons h1 _ ih => rw [List.mapM_cons, List.mapM_cons, hfg _ _ h1, ih]

theorem compress_forall₂ {α : Type} {r : α → α → Prop} {l l' : List α} (h : List.Forall₂ r l l') (g : List Bool) : List.Forall₂ r (compress l g) (compress l' g) := by
  induction h generalizing g with
  | nil => cases g <;> exact .nil
  | cons h1 _ ih =>
    cases g with
    | nil => exact .nil
    | cons b g =>
      cases b with
      | false => exact ih g
      | true => exact .cons h1 (ih g)

/-- C143: experience beyond the limits has no influence: changing the experience of rules above the upper limit, or below the lower one, does not change any prediction. -/
theorem C143_beyond (L : Learner K d M) (c : ExpCalc K) (lo hi : Option K) (hc : Spec.Limits c d lo hi) (w : K) (cache : Bool) (g : List Bool) (pool pool' : List (Rule K d M))
    (h : List.Forall₂ (Spec.SameWithin lo hi) pool pool') (st : Option (SolState K)) (X : List (Point K d)) :
    Solution.predict L ⟨c, w⟩ filterAll cache ⟨g, pool, st⟩ X = Solution.predict L ⟨c, w⟩ filterAll cache ⟨g, pool', st⟩ X := by
  unfold Solution.predict Solution.subpopulation
  dsimp only
  rw [← h.length_eq]
  by_cases hlen : g.length = pool.length
  · rw [if_pos hlen, if_pos hlen]
    have h2 := compress_forall₂ h g
    dsimp only
    unfold mixing filterAll
    have he : (compress pool' g).isEmpty = (compress pool g).isEmpty := by
      rw [Bool.eq_iff_iff, List.isEmpty_iff_length_eq_zero, List.isEmpty_iff_length_eq_zero, h2.length_eq]
    rw [he]
    split
    · rfl
    dsimp only
    unfold mixRules
    rw [mapM_forall₂ (Rule.localPred L cache X) (Rule.localPred L cache X) h2, mapM_forall₂ (Rule.tau ⟨c, w⟩) (Rule.tau ⟨c, w⟩) h2]
    · rintro ρ ρ' ⟨s, e, hs, rfl, hcase⟩
      unfold Rule.tau
      rw [hs]
      dsimp only
      rw [hc.value, hc.value]
      rcases hcase with rfl | ⟨u, rfl, h1, h2⟩ | ⟨l, rfl, h1, h2⟩
      · rfl
      · rw [clipOpt_above _ _ _ h1, clipOpt_above _ _ _ h2]
      · rw [clipOpt_below _ _ _ h1, clipOpt_below _ _ _ h2]
    · rintro ρ ρ' ⟨s, e, hs, rfl, _⟩
      unfold Rule.localPred Rule.matchRows Rule.predict
      rw [hs]
  · rw [if_neg hlen, if_neg hlen]

/-- C143: between two equally accurate rules the weights differ at most by the factor upper limit / lower limit. -/
theorem C143_ratio (c : ExpCalc K) (l u : K) (hl : 0 < l) (hlu : l ≤ u) (hc : Spec.Limits c d (some l) (some u)) (w : K) (hw : 0 ≤ w) (ρ ρ' : Rule K d M) (s s' : RuleState K)
    (hs : ρ.st = some s) (hs' : ρ'.st = some s') (herr : s.error = s'.error) (e : K) (he : s.error = ((e : K) : WithTop K)) (hpos : 0 < e) :
    ∃ t t', ρ.tau ⟨c, w⟩ = .ok t ∧ ρ'.tau ⟨c, w⟩ = .ok t' ∧ t ≤ u / l * t' := by
  refine ⟨_, _, by unfold Rule.tau; rw [hs], by unfold Rule.tau; rw [hs'], ?_⟩
  dsimp only
  rw [← herr, he, hc.value, hc.value]
  simp only [invError, WithTop.map_coe, WithTop.untopD_coe]
  have h1 := clipOpt_range l u (s.experience : K) hlu
  have h2 := clipOpt_range l u (s'.experience : K) hlu
  have h3 : clipOpt (some l) (some u) (s.experience : K) ≤ u / l * clipOpt (some l) (some u) (s'.experience : K) := by
    refine h1.2.trans ?_
    rw [div_mul_eq_mul_div, le_div_iff₀ hl]
    exact mul_le_mul_of_nonneg_left h2.1 (hl.le.trans hlu)
  have h4 : 0 ≤ 1 / e * w := mul_nonneg (one_div_pos.mpr hpos).le hw
  calc _ = clipOpt (some l) (some u) (s.experience : K) * (1 / e * w) := by ring
    _ ≤ u / l * clipOpt (some l) (some u) (s'.experience : K) * (1 / e * w) := mul_le_mul_of_nonneg_right h3 h4
    _ = _ := by ring

/-! ### C118, C119 with the values of the code -/

/-- C118 for the genetic algorithm with its default settings (mutation rate 0.001, 32 solutions, tournaments of 5): whatever happened before, every selection of rules can be in the population
after the next generation. -/
theorem C118_ga_default_partial (g : List Bool) (ev : Eval K) (hev : TotalEval ev g.length) (earlier : List (GADraw K)) (pop pop0 : List (Indiv K)) (hl : AllLen g.length pop)
    (hrun : gaOptimize GACfg.default earlier g.length ev pop = .ok pop0) (idx : List (List Nat)) (hv : (SelDraw.tournament idx).Valid 32 5 pop0.length)
    (cross : Nat → Bool → K × CrossDraw K) :
    ∃ flips, (∀ j, Spec.Unit (flips j)) ∧ ∃ pop', gaOptimize GACfg.default (earlier ++ [⟨.tournament idx, cross, flips⟩]) g.length ev pop = .ok pop' ∧ ∃ σ ∈ pop', σ.genome = g :=
  C118_ga_partial GACfg.default (by simp [GACfg.default]) (by unfold GACfg.default; norm_num) 5 (by decide) (by simp [GACfg.default]) g ev hev earlier pop pop0 hl hrun idx hv cross

/-- C119 with the sigmoid of the code: such a rule is taken up exactly if the draw of the binarisation is at most `1 / (1 + e^5)`, which is less than one in a hundred. -/
theorem C119_rare (a : ℝ) (leaders : List (Indiv ℝ)) (d : WolfDraw ℝ) (σ τ : Indiv ℝ) (i : Nat) (hi : σ.genome[i]? = some false)
    (hl : ∀ leader ∈ leaders, leader.genome[i]? = some false) (h : wolfMove .sigmoid sigmoid a leaders d σ = .ok τ) :
    (τ.genome[i]? = some true ↔ d.v i ≤ 1 / (1 + Real.exp 5)) ∧ 1 / (1 + Real.exp 5) < (1 : ℝ) / 100 := by
  have h0 : sigmoid 0 = 1 / (1 + Real.exp 5) := by unfold sigmoid; norm_num
  refine ⟨?_, ?_⟩
  · rw [C119_chance sigmoid a leaders d σ τ i hi hl h, h0]
    simp
  · have h1 : (1 + 1 : ℝ) ≤ Real.exp 1 := Real.add_one_le_exp 1
    have h2 : (2.7 : ℝ) < Real.exp 1 := by have := Real.exp_one_gt_d9; linarith
    have h5 : Real.exp 5 = Real.exp 1 ^ 5 := by rw [← Real.exp_nat_mul]; norm_num
    have h6 : (2.7 : ℝ) ^ 5 < Real.exp 1 ^ 5 := pow_lt_pow_left₀ h2 (by norm_num) (by norm_num)
    rw [one_div_lt_one_div (by positivity) (by norm_num), h5]
    norm_num at h6 ⊢
    linarith

/-! ### Examples -/

/-- A rule that matches two of three samples, with a given experience. -/
def capDemo (e : Nat) : Rule ℚ 1 ℚ :=
  { kind := .ordered
    bounds := fun _ => (0, 1)
    inputSpace := fun _ => (0, 5)
    st := some { isFitted := true, experience := e, matchSet := [true, true, false], pred := [2, 2], error := ((1 : ℚ) : WithTop ℚ), fitness := ((0 : ℚ) : WithBot ℚ) }
    model := some 2 }

example : acceptVariance 5 [1, 3, 0] (capDemo 2) = .ok true ∧ acceptVariance 6 [1, 3, 0] (capDemo 2) = .ok false ∧ acceptVariance 0 [1, 3, 0] (capDemo 2) = .ok true ∧ acceptVariance 0 [0, 0, 1] (capDemo 2) = .ok false ∧
    acceptVariance (-1) [1, 3, 0] (capDemo 2) = .ok false ∧ acceptMaxError 1 (capDemo 2) = .ok true ∧ acceptMaxError (1 / 2) (capDemo 2) = .ok false ∧ (capDemo 2).ErrorFloored := by
  refine ⟨by decide +kernel, by decide +kernel, by decide +kernel, by decide +kernel, by decide +kernel, by decide +kernel, by decide +kernel, ?_⟩
  intro s hs
  cases hs
  exact WithTop.coe_le_coe.mpr (by norm_num)

example : Spec.Limits (.capDim (some 2) (some 3) : ExpCalc ℚ) 4 (some 8) (some 12) := .inr ⟨_, _, rfl, by norm_num, by norm_num⟩

example : Spec.SameWithin (some (1 : ℚ)) (some 2) (capDemo 2) (capDemo 7) := ⟨_, 7, rfl, rfl, .inr (.inl ⟨2, rfl, by norm_num, by norm_num⟩)⟩

/-- Draws of a tournament selection with the default settings, and a generation before. -/
example : (SelDraw.tournament (List.replicate 32 [0, 0, 0, 0, 0])).Valid 32 5 1 ∧
    (gaOptimize GACfg.default [⟨.tournament (List.replicate 32 [0, 0, 0, 0, 0]), fun _ _ => (1, .nPoint []), fun _ => 1⟩] 2 plusEval [⟨[false, false], none⟩]).toOption.isSome = true := by
  refine ⟨⟨by decide, ?_⟩, by decide +kernel⟩
  intro js h
  rw [List.eq_of_mem_replicate h]
  decide

end Suprb
