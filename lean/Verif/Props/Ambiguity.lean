import Verif.Props.Influence
import Mathlib.Tactic.Linarith

/-!
# C175: mixing is not worse than its rules on average
-/

set_option autoImplicit false
set_option linter.unusedSectionVars false

namespace Suprb

open _root_.Spec (Pairs Point InBox InBounds Ordered Inside)

variable {K : Type} [Field K] [LinearOrder K] [IsStrictOrderedRing K] {d : Nat} {M : Type}

/-- `w` is `n` if it lies within the bounds (none means unbounded), otherwise the bound that it exceeds; the upper bound wins if they contradict each other. -/
def Spec.ClippedTo (lo hi : Option K) (n w : K) : Prop :=
  (∀ h, hi = some h → w ≤ h) ∧ (∀ l, lo = some l → l ≤ w ∨ hi = some w) ∧
  (n < w → lo = some w ∨ (hi = some w ∧ ∃ l, lo = some l ∧ w ≤ l)) ∧ (w < n → hi = some w)

/-- How much `n` samples of experience count in dimension `d`: `n` itself, or `n` clipped to the bounds, or to the bounds times the dimension. -/
def Spec.CountsAs (c : ExpCalc K) (d n : Nat) (w : K) : Prop :=
  match c with
  | .plain => w = n
  | .cap lo hi => Spec.ClippedTo lo hi n w
  | .capDim lo hi => Spec.ClippedTo (lo.map fun l => l * (d : K)) (hi.map fun h => h * (d : K)) n w

theorem clippedTo_clipOpt (lo hi : Option K) (n : K) : Spec.ClippedTo lo hi n (clipOpt lo hi n) := by
  unfold Spec.ClippedTo clipOpt
  cases lo with
  | none =>
    cases hi with
    | none => simp
    | some h =>
      refine ⟨?_, nofun, ?_, ?_⟩
      · rintro _ ⟨⟩; exact min_le_right _ _
      · intro h1; exact absurd (min_le_left n h) (not_le.mpr h1)
      · intro h1
        dsimp only at h1 ⊢
        rw [min_lt_iff] at h1
        rcases h1 with h1 | h1
        · exact absurd h1 (lt_irrefl _)
        · rw [min_eq_right h1.le]
  | some l =>
    cases hi with
    | none =>
      refine ⟨nofun, ?_, ?_, ?_⟩
      · rintro _ ⟨⟩; exact .inl (le_max_right _ _)
      · intro h1
        dsimp only at h1 ⊢
        rcases lt_max_iff.mp h1 with h1 | h1
        · exact absurd h1 (lt_irrefl _)
        · rw [max_eq_right h1.le]; exact .inl rfl
      · intro h1; exact absurd (le_max_left n l) (not_le.mpr h1)
    | some h =>
      dsimp only
      refine ⟨?_, ?_, ?_, ?_⟩
      · rintro _ ⟨⟩; exact min_le_right _ _
      · rintro _ ⟨⟩
        rcases le_total (max n l) h with h1 | h1
        · rw [min_eq_left h1]; exact .inl (le_max_right _ _)
        · rw [min_eq_right h1]; exact .inr rfl
      · intro h1
        rcases le_total (max n l) h with h2 | h2
        · rw [min_eq_left h2] at h1 ⊢
          rcases lt_max_iff.mp h1 with h1 | h1
          · exact absurd h1 (lt_irrefl _)
          · rw [max_eq_right h1.le]; exact .inl rfl
        · rw [min_eq_right h2] at h1 ⊢
          refine .inr ⟨rfl, l, rfl, ?_⟩
          rcases le_max_iff.mp h2 with h3 | h3
          · exact absurd h1 (not_lt.mpr h3)
          · exact h3
      · intro h1
        rcases min_lt_iff.mp h1 with h2 | h2
        · exact absurd (le_max_left n l) (not_le.mpr h2)
        · rw [min_eq_right (le_trans h2.le (le_max_left _ _))]

theorem Spec.ClippedTo.unique {lo hi : Option K} {n w w' : K} (h : Spec.ClippedTo lo hi n w) (h' : Spec.ClippedTo lo hi n w') : w = w' := by
  have key : ∀ a b : K, Spec.ClippedTo lo hi n a → Spec.ClippedTo lo hi n b → ¬ a < b := by
    rintro a b ⟨_, a2, _, a4⟩ ⟨b1, _, b3, _⟩ hlt
    by_cases hn : n < b
    · rcases b3 hn with hb | ⟨hb, l, hl, hle⟩
      · rcases a2 _ hb with h1 | h1
        · exact absurd h1 (not_le.mpr hlt)
        · exact absurd (b1 _ h1) (not_le.mpr hlt)
      · rcases a2 _ hl with h1 | h1
        · exact absurd (hle.trans h1) (not_le.mpr hlt)
        · exact absurd (b1 _ h1) (not_le.mpr hlt)
    · exact absurd (b1 _ (a4 (lt_of_lt_of_le hlt (not_lt.mp hn)))) (not_le.mpr hlt)
  exact le_antisymm (not_lt.mp (key _ _ h' h)) (not_lt.mp (key _ _ h h'))

theorem countsAs_iff (c : ExpCalc K) (d n : Nat) (w : K) : Spec.CountsAs c d n w ↔ w = c.value d n := by
  have key : ∀ lo hi, Spec.ClippedTo lo hi (n : K) w ↔ w = clipOpt lo hi n :=
    fun lo hi => ⟨fun h => h.unique (clippedTo_clipOpt lo hi n), fun h => h ▸ clippedTo_clipOpt lo hi n⟩
  cases c with
  | plain => exact Iff.rfl
  | cap lo hi => exact key _ _
  | capDim lo hi => exact key _ _

/-- What a matching rule says: its weight (experience, after the experience calculation, divided by its error) and its local prediction. -/
structure Spec.Opinion (K : Type) where
  weight : K
  value : K

/-- `o` is the opinion of the fitted rule `ρ` about the sample `x`. -/
def Rule.HasOpinion (L : Learner K d M) (c : ExpCalc K) (x : Point K d) (ρ : Rule K d M) (o : Spec.Opinion K) : Prop :=
  ρ.LocalPrediction L x o.value ∧ ∃ s e n, ρ.st = some s ∧ s.error = ((e : K) : WithTop K) ∧ Spec.CountsAs c d s.experience n ∧ o.weight = n / e

/-- The sum of the weights. -/
def Spec.totalWeight (os : List (Spec.Opinion K)) : K := (os.map fun o => o.weight).sum

/-- The squared distances of the opinions from `t`, each times its weight. -/
def Spec.weightedSquares (os : List (Spec.Opinion K)) (t : K) : K := (os.map fun o => o.weight * (t - o.value) ^ 2).sum

theorem ambiguity_sums (os : List (Spec.Opinion K)) (t v : K) :
    Spec.weightedSquares os t = Spec.weightedSquares os v + Spec.totalWeight os * ((t - v) ^ 2 + 2 * (t - v) * v)
      - 2 * (t - v) * (os.map fun o => o.value * o.weight).sum := by
  induction os with
  | nil => simp [Spec.weightedSquares, Spec.totalWeight]
  | cons o os ih =>
    simp only [Spec.weightedSquares, Spec.totalWeight, List.map_cons, List.sum_cons] at ih ⊢
    rw [ih]; ring

theorem opinions_sums (L : Learner K d M) (P : MixParams K) (x : Point K d) (rs : List (Rule K d M)) (os : List (Spec.Opinion K))
    (h : List.Forall₂ (Rule.HasOpinion L P.expCalc x) rs os) :
    (rs.map fun ρ => ρ.valueAt L x * ρ.tauVal P).sum = P.weight * (os.map fun o => o.value * o.weight).sum ∧
    (rs.map fun ρ => ρ.tauVal P).sum = P.weight * Spec.totalWeight os := by
  induction h with
  | nil => simp [Spec.totalWeight]
  | @cons ρ o rs os hh _ ih =>
    obtain ⟨⟨m, hm, hu⟩, s, e, n, hs, he, hn, hw⟩ := hh
    rw [countsAs_iff] at hn
    subst hn
    have hv : ρ.valueAt L x = o.value := by rw [ρ.valueAt_of_model L m hm x, hu]
    have ht : ρ.tauVal P = P.weight * o.weight := by
      unfold Rule.tauVal
      rw [hs]
      simp only [he, invError, WithTop.map_coe, WithTop.untopD_coe, hw]
      ring
    simp only [Spec.totalWeight, List.map_cons, List.sum_cons] at ih ⊢
    rw [ih.1, ih.2, hv, ht]
    constructor <;> ring

theorem weightedSquares_nonneg (os : List (Spec.Opinion K)) (h : ∀ o ∈ os, 0 < o.weight) (v : K) :
    0 ≤ Spec.weightedSquares os v ∧ (Spec.weightedSquares os v = 0 ↔ ∀ o ∈ os, o.value = v) := by
  induction os with
  | nil => simp [Spec.weightedSquares]
  | cons o os ih =>
    obtain ⟨h1, h2⟩ := ih fun q hq => h q (List.mem_cons_of_mem _ hq)
    have ho := h o List.mem_cons_self
    have hsq : 0 ≤ o.weight * (v - o.value) ^ 2 := mul_nonneg ho.le (sq_nonneg _)
    have he : Spec.weightedSquares (o :: os) v = o.weight * (v - o.value) ^ 2 + Spec.weightedSquares os v := by
      simp [Spec.weightedSquares]
    rw [he]
    refine ⟨add_nonneg hsq h1, ?_⟩
    rw [add_eq_zero_iff_of_nonneg hsq h1, h2, mul_eq_zero, List.forall_mem_cons]
    refine and_congr_left fun _ => ⟨?_, ?_⟩
    · rintro (hz | hz)
      · exact absurd hz ho.ne'
      · have := sq_eq_zero_iff.mp hz
        linarith
    · rintro rfl
      exact .inr (by simp)

theorem HasOpinion.weight_pos {L : Learner K d M} {c : ExpCalc K} (hc : c.Positive d) {x : Point K d} {rs : List (Rule K d M)}
    {os : List (Spec.Opinion K)} (h : List.Forall₂ (Rule.HasOpinion L c x) rs os) (hu : ∀ ρ ∈ rs, ρ.Usable) : ∀ o ∈ os, 0 < o.weight := by
  induction h with
  | nil => nofun
  | @cons ρ o rs os hh _ ih =>
    intro q hq
    rcases List.mem_cons.mp hq with rfl | hq
    · obtain ⟨_, s, e, n, hs, he, hn, hw⟩ := hh
      rw [countsAs_iff] at hn
      subst hn
      obtain ⟨s', m, e', hs', _, he', hpos, hexp⟩ := hu ρ List.mem_cons_self
      rw [hs] at hs'; cases hs'
      rw [he] at he'
      have : e = e' := by exact_mod_cast he'
      subst this
      rw [hw]
      exact div_pos (hc _ hexp) hpos
    · exact ih (fun r hr => hu r (List.mem_cons_of_mem _ hr)) q hq

theorem exists_opinions (L : Learner K d M) (c : ExpCalc K) (x : Point K d) (rs : List (Rule K d M)) (hu : ∀ ρ ∈ rs, ρ.Usable) :
    ∃ os, List.Forall₂ (Rule.HasOpinion L c x) rs os := by
  induction rs with
  | nil => exact ⟨[], .nil⟩
  | cons ρ rs ih =>
    obtain ⟨os, hos⟩ := ih fun r hr => hu r (List.mem_cons_of_mem _ hr)
    obtain ⟨s, m, e, hs, hm, he, _, _⟩ := hu ρ List.mem_cons_self
    exact ⟨⟨c.value d s.experience / e, L.predict m x⟩ :: os, .cons ⟨⟨m, hm, rfl⟩, s, e, _, hs, he, (countsAs_iff ..).mpr rfl, rfl⟩ hos⟩

/-- C175: take any sample that a selected rule matches and any true value `t`. The selected rules that match the sample have opinions, of positive weight, and the
squared error of the model is the weighted mean of the squared errors of the rules minus the weighted mean of their squared distances from the prediction. So it is
at most that weighted mean, and equal to it only if all of these rules say the same. -/
theorem C175_mixture (L : Learner K d M) (P : MixParams K) (hw : 0 < P.weight) (hc : P.expCalc.Positive d)
    (σ : Solution K d M) (hlen : σ.genome.length = σ.pool.length) (hp : ∀ ρ ∈ σ.pool, ρ.Usable)
    (x : Point K d) (hm : ∃ ρ ∈ compress σ.pool σ.genome, ρ.kind.call ρ.bounds x = true) (v : K) (hv : σ.PredictsAt L P x v) (t : K) :
    ∃ os : List (Spec.Opinion K),
      List.Forall₂ (Rule.HasOpinion L P.expCalc x) ((compress σ.pool σ.genome).filter fun ρ => ρ.kind.call ρ.bounds x) os ∧
      (∀ o ∈ os, 0 < o.weight) ∧ 0 < Spec.totalWeight os ∧
      (t - v) ^ 2 = Spec.weightedSquares os t / Spec.totalWeight os - Spec.weightedSquares os v / Spec.totalWeight os ∧
      (t - v) ^ 2 ≤ Spec.weightedSquares os t / Spec.totalWeight os ∧
      ((t - v) ^ 2 = Spec.weightedSquares os t / Spec.totalWeight os ↔ ∀ o ∈ os, o.value = v) := by
  have hus : ∀ ρ ∈ (compress σ.pool σ.genome).filter fun ρ => ρ.kind.call ρ.bounds x, ρ.Usable :=
    fun ρ h => hp ρ (mem_of_mem_compress (List.mem_filter.mp h).1)
  obtain ⟨os, hos⟩ := exists_opinions L P.expCalc x _ hus
  have hpos := HasOpinion.weight_pos hc hos hus
  have hne : os ≠ [] := by
    rintro rfl
    obtain ⟨ρ, h1, h2⟩ := hm
    have : ρ ∈ (compress σ.pool σ.genome).filter fun ρ => ρ.kind.call ρ.bounds x := List.mem_filter.mpr ⟨h1, h2⟩
    rw [List.forall₂_nil_right_iff.mp hos] at this
    cases this
  have hW : 0 < Spec.totalWeight os := sum_pos_of_pos _ _ hpos hne
  obtain ⟨hnum, hden⟩ := opinions_sums L P x _ _ hos
  have hvv : v * Spec.totalWeight os = (os.map fun o => o.value * o.weight).sum := by
    rw [predictsAt_iff L P σ hlen hp] at hv
    have hd : denAt P (compress σ.pool σ.genome) x ≠ 0 := by
      unfold denAt; rw [hden]; exact (mul_pos hw hW).ne'
    unfold mixAt at hv
    rw [if_neg hd] at hv
    unfold denAt numAt at hv
    rw [hnum, hden] at hv
    rw [hv]
    field_simp
  have hkey := ambiguity_sums os t v
  rw [← hvv] at hkey
  have hkey' : (t - v) ^ 2 * Spec.totalWeight os = Spec.weightedSquares os t - Spec.weightedSquares os v := by rw [hkey]; ring
  have hid : (t - v) ^ 2 = Spec.weightedSquares os t / Spec.totalWeight os - Spec.weightedSquares os v / Spec.totalWeight os := by
    rw [← sub_div, ← hkey']; field_simp
  obtain ⟨hn, hz⟩ := weightedSquares_nonneg os hpos v
  have hn' : 0 ≤ Spec.weightedSquares os v / Spec.totalWeight os := div_nonneg hn hW.le
  refine ⟨os, hos, hpos, hW, hid, by linarith, ?_⟩
  rw [← hz]
  constructor
  · intro h
    have h0 : Spec.weightedSquares os v / Spec.totalWeight os = 0 := by linarith
    rcases div_eq_zero_iff.mp h0 with h | h
    · exact h
    · exact absurd h hW.ne'
  · intro h
    rw [hid, h]; simp

/-- C175, as a comparison with single rules: for every sample that a selected rule matches and every true value, some selected rule that matches the sample alone
would have been at least as far off as the model, and if two of these rules say different things then some of them would have been strictly further off. -/
theorem C175_worst_rule (L : Learner K d M) (P : MixParams K) (hw : 0 < P.weight) (hc : P.expCalc.Positive d)
    (σ : Solution K d M) (hlen : σ.genome.length = σ.pool.length) (hp : ∀ ρ ∈ σ.pool, ρ.Usable)
    (x : Point K d) (hm : ∃ ρ ∈ compress σ.pool σ.genome, ρ.kind.call ρ.bounds x = true) (v : K) (hv : σ.PredictsAt L P x v) (t : K) :
    (∃ ρ ∈ compress σ.pool σ.genome, ρ.kind.call ρ.bounds x = true ∧ ∃ u, ρ.LocalPrediction L x u ∧ |t - v| ≤ |t - u|) ∧
    ((∃ ρ ∈ compress σ.pool σ.genome, ρ.kind.call ρ.bounds x = true ∧ ∃ u, ρ.LocalPrediction L x u ∧ u ≠ v) →
      ∃ ρ ∈ compress σ.pool σ.genome, ρ.kind.call ρ.bounds x = true ∧ ∃ u, ρ.LocalPrediction L x u ∧ |t - v| < |t - u|) := by
  obtain ⟨os, hos, hpos, hW, hdummy, hle, heq⟩ := C175_mixture L P hw hc σ hlen hp x hm v hv t
  have hback : ∀ o ∈ os, ∃ ρ ∈ compress σ.pool σ.genome, ρ.kind.call ρ.bounds x = true ∧ ρ.LocalPrediction L x o.value := by
    intro o ho
    obtain ⟨ρ, hρ, hop⟩ : ∃ ρ ∈ (compress σ.pool σ.genome).filter fun ρ => ρ.kind.call ρ.bounds x, Rule.HasOpinion L P.expCalc x ρ o := by
      clear hpos hW hle heq hdummy
      generalize (compress σ.pool σ.genome).filter (fun ρ => ρ.kind.call ρ.bounds x) = rs at hos
      induction hos with
      | nil => cases ho
      | cons hh _ ih =>
        rcases List.mem_cons.mp ho with rfl | ho
        · exact ⟨_, List.mem_cons_self, hh⟩
        · obtain ⟨ρ, h1, h2⟩ := ih ho
          exact ⟨ρ, List.mem_cons_of_mem _ h1, h2⟩
    exact ⟨ρ, (List.mem_filter.mp hρ).1, (List.mem_filter.mp hρ).2, hop.1⟩
  have hsum : ∀ q : List (Spec.Opinion K), (∀ o ∈ q, 0 < o.weight) → (∀ o ∈ q, (t - o.value) ^ 2 ≤ (t - v) ^ 2) →
      Spec.weightedSquares q t ≤ Spec.totalWeight q * (t - v) ^ 2 := by
    intro q
    induction q with
    | nil => intro _ _; simp [Spec.weightedSquares, Spec.totalWeight]
    | cons o q ih =>
      intro h1 h2
      have := ih (fun a ha => h1 a (List.mem_cons_of_mem _ ha)) fun a ha => h2 a (List.mem_cons_of_mem _ ha)
      simp only [Spec.weightedSquares, Spec.totalWeight, List.map_cons, List.sum_cons] at this ⊢
      have := mul_le_mul_of_nonneg_left (h2 o List.mem_cons_self) (h1 o List.mem_cons_self).le
      linarith [add_mul o.weight (q.map fun o => o.weight).sum ((t - v) ^ 2)]
  have hstrict : (∃ o ∈ os, o.value ≠ v) → ∃ o ∈ os, |t - v| < |t - o.value| := by
    intro hd
    by_contra hcon
    push Not at hcon
    have h1 := hsum os hpos fun o ho => sq_le_sq.mpr (hcon o ho)
    have h2 : Spec.weightedSquares os t / Spec.totalWeight os ≤ (t - v) ^ 2 := (div_le_iff₀ hW).mpr (by linarith)
    obtain ⟨o, ho, hne⟩ := hd
    exact hne (heq.mp (le_antisymm hle h2) o ho)
  refine ⟨?_, ?_⟩
  · by_cases hd : ∃ o ∈ os, o.value ≠ v
    · obtain ⟨o, ho, hlt⟩ := hstrict hd
      obtain ⟨ρ, h1, h2, h3⟩ := hback o ho
      exact ⟨ρ, h1, h2, _, h3, hlt.le⟩
    · push Not at hd
      cases os with
      | nil => simp [Spec.totalWeight] at hW
      | cons o os =>
        obtain ⟨ρ, h1, h2, h3⟩ := hback o List.mem_cons_self
        exact ⟨ρ, h1, h2, _, h3, by rw [hd o List.mem_cons_self]⟩
  · rintro ⟨ρ, h1, h2, u, h3, hne⟩
    have : ∃ o ∈ os, o.value ≠ v := by
      by_contra hcon
      push Not at hcon
      have hmem : ρ ∈ (compress σ.pool σ.genome).filter fun ρ => ρ.kind.call ρ.bounds x := List.mem_filter.mpr ⟨h1, h2⟩
      have : ∃ o ∈ os, Rule.HasOpinion L P.expCalc x ρ o := by
        clear hpos hW hle heq hdummy hback hstrict hcon
        generalize (compress σ.pool σ.genome).filter (fun ρ => ρ.kind.call ρ.bounds x) = rs at hos hmem
        induction hos with
        | nil => cases hmem
        | cons hh _ ih =>
          rcases List.mem_cons.mp hmem with rfl | hmem
          · exact ⟨_, List.mem_cons_self, hh⟩
          · obtain ⟨o, ho1, ho2⟩ := ih hmem
            exact ⟨o, List.mem_cons_of_mem _ ho1, ho2⟩
      obtain ⟨o, ho, ⟨m, hm1, hm2⟩, _⟩ := this
      obtain ⟨m', hm1', rfl⟩ := h3
      rw [hm1] at hm1'; cases hm1'
      exact hne (hm2 ▸ hcon o ho)
    obtain ⟨o, ho, hlt⟩ := hstrict this
    obtain ⟨ρ', h1', h2', h3'⟩ := hback o ho
    exact ⟨ρ', h1', h2', _, h3', hlt⟩

/-- A case of C175: the rules `[0,2]` (says 1, weight 3) and `[1,3]` (says 5, weight 4) both match `3/2`, the prediction is `23/7`, and for the true value 2 the
squared error `81/49` is less than the weighted mean `39/7` of 1 and 9. -/
example : (fittedRule 0 2 1 1 3).Usable ∧ (fittedRule 1 3 5 (1/2) 2).Usable ∧
    (fittedRule 0 2 1 1 3).kind.call (fittedRule 0 2 1 1 3).bounds ![3/2] = true ∧
    (fittedRule 0 2 1 1 3).HasOpinion meanLearner .plain ![3/2] ⟨3, 1⟩ ∧ (fittedRule 1 3 5 (1/2) 2).HasOpinion meanLearner .plain ![3/2] ⟨4, 5⟩ ∧
    Solution.predict meanLearner ⟨.plain, 1⟩ filterAll false
      { genome := [true, true], pool := [fittedRule 0 2 1 1 3, fittedRule 1 3 5 (1/2) 2] } [![3/2]] = .ok [23/7] ∧
    ((2 : ℚ) - 23/7) ^ 2 < Spec.weightedSquares [⟨3, 1⟩, ⟨4, 5⟩] 2 / Spec.totalWeight [⟨3, 1⟩, ⟨4, 5⟩] := by
  refine ⟨⟨_, _, 1, rfl, rfl, rfl, by norm_num, by decide⟩, ⟨_, _, 1/2, rfl, rfl, rfl, by norm_num, by decide⟩, by decide +kernel,
    ⟨⟨_, rfl, by decide +kernel⟩, _, 1, 3, rfl, rfl, rfl, by norm_num⟩, ⟨⟨_, rfl, by decide +kernel⟩, _, 1/2, 2, rfl, rfl, rfl, by norm_num⟩, by decide +kernel, ?_⟩
  simp [Spec.weightedSquares, Spec.totalWeight]; norm_num

end Suprb
