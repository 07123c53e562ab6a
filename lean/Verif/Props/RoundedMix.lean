import Verif.Lemmas.RoundedMix
import Verif.Props.Solution
import Verif.Props.Rounded
import Mathlib.Algebra.Order.Ring.Pow

/-!
# C155, C156: predictions and errors in floating-point arithmetic
-/

set_option autoImplicit false
set_option linter.unusedSectionVars false

namespace Suprb

open _root_.Spec (Pairs Point)

variable {K : Type} [Field K] [LinearOrder K] [IsStrictOrderedRing K] {d : Nat} {M : Type}

/-! ### The weights -/

theorem clipOpt_near {u : K} (hu : 0 ≤ u) (hu1 : u < 1) {lo lo' hi hi' : Option K} {x x' : K} (hx : 0 < x) (h : Near u 1 x x')
    (hlo : Option.Rel (Near u 1) lo lo') (hhi : Option.Rel (Near u 1) hi hi') (hpos : 0 < clipOpt lo hi x) :
    Near u 1 (clipOpt lo hi x) (clipOpt lo' hi' x') := by
  have key : ∀ a a' : K, 0 < a → Near u 1 a a' → ∀ hi hi' : Option K, Option.Rel (Near u 1) hi hi' →
      (0 : K) < (match hi with | none => a | some h => min a h) →
      Near u 1 (match hi with | none => a | some h => min a h) (match hi' with | none => a' | some h => min a' h) := by
    intro a a' ha haa hi hi' hr hp
    cases hr with
    | none => exact haa
    | some hb => exact Near.min hu hu1 ha (lt_min_iff.1 hp).2 haa hb
  cases hlo with
  | none => exact key x x' hx h hi hi' hhi hpos
  | @some l l' hl => exact key (max x l) (max x' l') (lt_max_of_lt_left hx) (Near.max hu hu1 hx h hl) hi hi' hhi hpos

theorem near_option {u : K} (hu : 0 ≤ u) (hu1 : u < 1) (o : Option K) : Option.Rel (Near u 1) o o := by
  cases o with
  | none => exact .none
  | some a => exact .some (Near.mono hu hu1 (Nat.zero_le 1) (Near.refl a))

theorem near_option_rnd {u : K} {R : Rounding K} (hR : R.Accurate u) (o : Option K) (n : K) :
    Option.Rel (Near u 1) (o.map (· * n)) (o.map fun l => R.rnd (l * n)) := by
  cases o with
  | none => exact .none
  | some a => exact .some (Near.rnd_one hR _)

theorem expValue_near {u : K} (hu : 0 ≤ u) (hu1 : u < 1) {R : Rounding K} (hR : R.Accurate u) (c : ExpCalc K) (hc : c.Positive d)
    (e : Nat) (he : 0 < e) : Near u 1 (c.value d e) (R.expValue c d e) := by
  have hp := hc e he
  have he' : (0 : K) < (e : K) := by exact_mod_cast he
  cases c with
  | plain => exact Near.rnd_one hR _
  | cap lo hi => exact clipOpt_near hu hu1 he' (Near.rnd_one hR _) (near_option hu hu1 lo) (near_option hu hu1 hi) hp
  | capDim lo hi => exact clipOpt_near hu hu1 he' (Near.rnd_one hR _) (near_option_rnd hR lo _) (near_option_rnd hR hi _) hp

/-- The rounded weight of a rule (0 for a never fitted one; only used for fitted ones). -/
def Rounding.tauVal (R : Rounding K) (P : MixParams K) (ρ : Rule K d M) : K :=
  match ρ.st with
  | none => 0
  | some s => R.rnd (R.invError s.error * R.rnd (R.expValue P.expCalc d s.experience * P.weight))

theorem Rounding.tau_some (R : Rounding K) (P : MixParams K) (ρ : Rule K d M) (h : ρ.st.isSome) :
    R.tau P ρ = .ok (R.tauVal P ρ) := by
  unfold Rounding.tau Rounding.tauVal
  cases hs : ρ.st with
  | none => rw [hs] at h; cases h
  | some s => rfl

/-- A weight is rounded at most four times. -/
theorem tauVal_near {u : K} (hu : 0 ≤ u) (hu1 : u < 1) {R : Rounding K} (hR : R.Accurate u) (P : MixParams K)
    (hc : P.expCalc.Positive d) {ρ : Rule K d M} (h : ρ.Usable) : Near u 4 (ρ.tauVal P) (R.tauVal P ρ) := by
  obtain ⟨s, m, e, h1, h2, h3, h4, h5⟩ := h
  unfold Rule.tauVal Rounding.tauVal
  rw [h1]
  simp only [h3, invError, Rounding.invError, WithTop.map_coe, WithTop.untopD_coe]
  have a := Near.rnd_one hR (1 / e)
  have b := Near.rnd hu hu1 hR (Near.mul hu hu1 (expValue_near hu hu1 hR P.expCalc hc s.experience h5) (Near.refl P.weight))
  exact Near.rnd hu hu1 hR (Near.mul hu hu1 a b)

/-! ### Sample by sample -/

theorem Rounding.colSum_map {α β : Type} (sum : List K → K) (X : List α) (f : β → α → K) (rs : List β) :
    Rounding.colSum sum X.length (rs.map fun r => X.map (f r)) = X.map fun x => sum (rs.map fun r => f r x) := by
  unfold Rounding.colSum
  apply List.ext_getElem
  · simp
  · intro i h1 h2
    simp only [List.getElem_map, List.getElem_range, List.map_map]
    congr 1
    apply List.map_congr_left
    intro r _
    have hi : i < X.length := by simpa using h2
    simp [hi]

/-- The rounded prediction for one sample. -/
def Rounding.mixAt (R : Rounding K) (S : Summation R) (L : Learner K d M) (P : MixParams K) (sub : List (Rule K d M)) (x : Point K d) : K :=
  R.rnd (S.sum (sub.map fun ρ => R.rnd ((if ρ.kind.call ρ.bounds x then ρ.valueAt L x else 0) * R.tauVal P ρ)) /
    (if S.sum (sub.map fun ρ => if ρ.kind.call ρ.bounds x then R.tauVal P ρ else 0) = 0 then 1
      else S.sum (sub.map fun ρ => if ρ.kind.call ρ.bounds x then R.tauVal P ρ else 0)))

theorem Rounding.mixRules_of_state (R : Rounding K) (S : Summation R) (L : Learner K d M) (P : MixParams K) (cache : Bool)
    (X : List (Point K d)) (sub : List (Rule K d M)) (hr : ∀ ρ ∈ sub, ρ.st.isSome)
    (hloc : ∀ ρ ∈ sub, ρ.localPred L cache X = .ok (X.map (ρ.kind.call ρ.bounds),
      X.map fun x => if ρ.kind.call ρ.bounds x then ρ.valueAt L x else 0)) :
    R.mixRules S L P cache X sub = .ok (X.map (R.mixAt S L P sub)) := by
  unfold Rounding.mixRules
  rw [mapM_ok _ _ _ hloc, mapM_ok _ (fun ρ => R.tauVal P ρ) _ fun ρ h => R.tau_some P ρ (hr ρ h)]
  simp only [bind, Except.bind]
  rw [quotients_guard]
  refine congrArg Except.ok ?_
  rw [List.map_zipWith, List.zipWith_map, List.zipWith_map, List.zipWith_self, List.zipWith_self]
  simp only [List.map_map]
  rw [show (fun a : Rule K d M => List.map ((fun v => R.rnd (v * R.tauVal P a)) ∘ fun x => if a.kind.call a.bounds x = true then a.valueAt L x else 0) X)
      = fun a => X.map fun x => R.rnd ((if a.kind.call a.bounds x = true then a.valueAt L x else 0) * R.tauVal P a) from by
        funext a; congr 1]
  rw [show (fun a : Rule K d M => List.map ((fun m => if m = true then R.tauVal P a else 0) ∘ a.kind.call a.bounds) X)
      = fun a => X.map fun x => if a.kind.call a.bounds x = true then R.tauVal P a else 0 from by
        funext a; congr 1]
  rw [Rounding.colSum_map S.sum X (fun (a : Rule K d M) x => R.rnd ((if a.kind.call a.bounds x = true then a.valueAt L x else 0) * R.tauVal P a)) sub,
      Rounding.colSum_map S.sum X (fun (a : Rule K d M) x => if a.kind.call a.bounds x = true then R.tauVal P a else 0) sub]
  rw [List.map_map, List.zipWith_map, List.zipWith_self]
  rfl

/-! ### One sample -/

/-- The relative error allowed for `k` roundings above and below a fraction bar. -/
def Spec.slack (u : K) (k : Nat) : K := ((1 + u) / (1 - u)) ^ k - 1

theorem slack_bounds {u : K} (hu : 0 ≤ u) (hu1 : u < 1) {i j k : Nat} (hi : i ≤ k) (hj : j ≤ k) {c : K} :
    (c ≤ (1 + u) ^ i / (1 - u) ^ j → c ≤ 1 + Spec.slack u k) ∧ ((1 - u) ^ i / (1 + u) ^ j ≤ c → 1 - Spec.slack u k ≤ c) := by
  have p : (0 : K) < 1 - u := by linarith
  have q : (0 : K) < 1 + u := by linarith
  have e : Spec.slack u k = (1 + u) ^ k / (1 - u) ^ k - 1 := by unfold Spec.slack; rw [div_pow]
  have r1 : (1 + u) ^ i / (1 - u) ^ j ≤ (1 + u) ^ k / (1 - u) ^ k :=
    div_le_div₀ (pow_nonneg q.le k) (pow_le_pow_right₀ (by linarith) hi) (pow_pos p k) (pow_le_pow_of_le_one p.le (by linarith) hj)
  have r2 : (1 - u) ^ k / (1 + u) ^ k ≤ (1 - u) ^ i / (1 + u) ^ j :=
    div_le_div₀ (pow_nonneg p.le i) (pow_le_pow_of_le_one p.le (by linarith) hi) (pow_pos q j) (pow_le_pow_right₀ (by linarith) hj)
  constructor
  · intro h; rw [e]; linarith
  · intro h
    have hy : 0 < (1 + u) ^ k / (1 - u) ^ k := div_pos (pow_pos q k) (pow_pos p k)
    have hinv : (1 - u) ^ k / (1 + u) ^ k = 1 / ((1 + u) ^ k / (1 - u) ^ k) := by rw [one_div_div]
    have : 2 - (1 + u) ^ k / (1 - u) ^ k ≤ 1 / ((1 + u) ^ k / (1 - u) ^ k) := by
      rw [le_div_iff₀ hy]
      nlinarith [sq_nonneg ((1 + u) ^ k / (1 - u) ^ k - 1)]
    rw [e]
    linarith [hinv ▸ r2]

theorem mixAt_near {u : K} (hu : 0 ≤ u) (hu1 : u < 1) {R : Rounding K} (hR : R.Accurate u) (S : Summation R) (L : Learner K d M)
    (P : MixParams K) (hw : 0 < P.weight) (hc : P.expCalc.Positive d) (sub : List (Rule K d M)) (hsub : ∀ ρ ∈ sub, ρ.Usable)
    (x : Point K d) :
    ((∀ ρ ∈ sub, ρ.kind.call ρ.bounds x = false) → R.mixAt S L P sub x = 0) ∧
    ((∃ ρ ∈ sub, ρ.kind.call ρ.bounds x = true) →
      ∀ B, (∀ ρ ∈ sub, ρ.kind.call ρ.bounds x = true → |ρ.valueAt L x| ≤ B) →
        |R.mixAt S L P sub x - mixAt L P sub x| ≤ Spec.slack u (sub.length + 5) * B) := by
  obtain ⟨q, hq, eq⟩ := sums_near hu hu1 hR (k := 5)
    (S.ok (sub.map fun ρ => R.rnd ((if ρ.kind.call ρ.bounds x then ρ.valueAt L x else 0) * R.tauVal P ρ)))
    (l := sub.map fun ρ => (if ρ.kind.call ρ.bounds x then ρ.valueAt L x else 0) * ρ.tauVal P) (by
      rw [List.forall₂_map_left_iff, List.forall₂_map_right_iff, List.forall₂_same]
      intro ρ hρ
      have := Near.rnd hu hu1 hR (Near.mul hu hu1 (Near.refl (if ρ.kind.call ρ.bounds x then ρ.valueAt L x else 0))
        (tauVal_near hu hu1 hR P hc (hsub ρ hρ)))
      exact this)
  obtain ⟨t, ht, et⟩ := sums_near hu hu1 hR (k := 4)
    (S.ok (sub.map fun ρ => if ρ.kind.call ρ.bounds x then R.tauVal P ρ else 0))
    (l := sub.map fun ρ => if ρ.kind.call ρ.bounds x then ρ.tauVal P else 0) (by
      rw [List.forall₂_map_left_iff, List.forall₂_map_right_iff, List.forall₂_same]
      intro ρ hρ
      by_cases h : ρ.kind.call ρ.bounds x
      · rw [if_pos h, if_pos h]
        exact tauVal_near hu hu1 hR P hc (hsub ρ hρ)
      · rw [if_neg h, if_neg h]
        exact Near.mono hu hu1 (Nat.zero_le 4) (Near.refl 0))
  rw [List.length_map] at hq ht
  constructor
  · intro hno
    have z1 : q.sum = 0 := near_zero_sum (fun a ha => by
      obtain ⟨ρ, hρ, rfl⟩ := List.mem_map.1 ha
      rw [if_neg (by rw [hno ρ hρ]; simp), zero_mul]) hq
    unfold Rounding.mixAt
    rw [eq, z1, zero_div, R.zero]
  · rintro ⟨ρ0, h0, m0⟩ B hB
    have hn : 0 < sub.length := List.length_pos_of_mem h0
    have hnum : (sub.map fun ρ => (if ρ.kind.call ρ.bounds x then ρ.valueAt L x else 0) * ρ.tauVal P).sum = numAt L P sub x := by
      unfold numAt
      rw [← sum_ite_filter]
      congr 1
      apply List.map_congr_left
      intro ρ _
      split_ifs <;> simp
    have hden : (sub.map fun ρ => if ρ.kind.call ρ.bounds x then ρ.tauVal P else 0).sum = denAt P sub x := by
      unfold denAt
      rw [← sum_ite_filter]
    have hpos : ∀ ρ ∈ sub, 0 < ρ.tauVal P := fun ρ h => Rule.tauVal_pos P hw hc (hsub ρ h)
    have dpos : 0 < denAt P sub x := sum_pos_of_pos _ _ (fun ρ h => hpos ρ (List.mem_filter.1 h).1)
      (List.ne_nil_of_mem (List.mem_filter.2 ⟨h0, m0⟩))
    have hd := near_sum_nonneg (fun a ha => by
      obtain ⟨ρ, hρ, rfl⟩ := List.mem_map.1 ha
      split_ifs
      · exact (hpos ρ hρ).le
      · exact le_rfl) ht
    rw [hden] at hd
    have p : (0 : K) < 1 - u := by linarith
    have pq : (0 : K) < 1 + u := by linarith
    have tpos : 0 < t.sum := (mul_pos (pow_pos p _) dpos).trans_le hd.1
    obtain ⟨η, eη, b1, b2⟩ := Near.rnd_one hR (q.sum / t.sum)
    rw [pow_one] at b1 b2
    have ev : R.mixAt S L P sub x = η * (q.sum / t.sum) := by
      unfold Rounding.mixAt
      rw [eq, et, if_neg tpos.ne']
      exact eη
    have em : mixAt L P sub x = numAt L P sub x / denAt P sub x := by
      unfold mixAt; rw [if_neg dpos.ne']
    have ηpos : 0 ≤ η := p.le.trans b1
    -- the common factor
    have c1 : η * (denAt P sub x / t.sum) * (1 + u) ^ (5 + (sub.length - 1)) ≤ 1 + Spec.slack u (sub.length + 5) := by
      refine (slack_bounds hu hu1 (i := sub.length + 5) (j := 4 + (sub.length - 1)) le_rfl (by omega)).1 ?_
      have r : denAt P sub x / t.sum ≤ 1 / (1 - u) ^ (4 + (sub.length - 1)) := by
        rw [div_le_div_iff₀ tpos (pow_pos p _)]
        linarith [hd.1]
      have r' := mul_le_mul b2 r (div_pos dpos tpos).le pq.le
      refine (mul_le_mul_of_nonneg_right r' (pow_nonneg pq.le _)).trans (le_of_eq ?_)
      rw [show sub.length + 5 = 1 + (5 + (sub.length - 1)) by omega, pow_add _ 1, pow_one]
      ring
    have c2 : 1 - Spec.slack u (sub.length + 5) ≤ η * (denAt P sub x / t.sum) * (1 - u) ^ (5 + (sub.length - 1)) := by
      refine (slack_bounds hu hu1 (i := sub.length + 5) (j := 4 + (sub.length - 1)) le_rfl (by omega)).2 ?_
      have r : 1 / (1 + u) ^ (4 + (sub.length - 1)) ≤ denAt P sub x / t.sum := by
        rw [div_le_div_iff₀ (pow_pos pq _) tpos]
        linarith [hd.2]
      have r' := mul_le_mul b1 r (div_pos one_pos (pow_pos pq _)).le ηpos
      refine le_trans (le_of_eq ?_) (mul_le_mul_of_nonneg_right r' (pow_nonneg p.le _))
      rw [show sub.length + 5 = 1 + (5 + (sub.length - 1)) by omega, pow_add _ 1, pow_one]
      ring
    have hk := near_sum_abs hq (η * (denAt P sub x / t.sum)) (Spec.slack u (sub.length + 5))
      (mul_nonneg ηpos (div_pos dpos tpos).le) c2 c1
    rw [hnum] at hk
    have eqn : R.mixAt S L P sub x - mixAt L P sub x =
        (η * (denAt P sub x / t.sum) * q.sum - numAt L P sub x) / denAt P sub x := by
      rw [ev, em]
      field_simp
    have habs : ((sub.map fun ρ => (if ρ.kind.call ρ.bounds x then ρ.valueAt L x else 0) * ρ.tauVal P).map fun a => |a|).sum ≤
        B * denAt P sub x := by
      rw [← hden, List.map_map, ← sum_map_mul_left', List.map_map]
      apply List.sum_le_sum
      intro ρ hρ
      simp only [Function.comp]
      by_cases h : ρ.kind.call ρ.bounds x
      · rw [if_pos h, if_pos h, abs_mul, abs_of_pos (hpos ρ hρ)]
        exact mul_le_mul_of_nonneg_right (hB ρ hρ h) (hpos ρ hρ).le
      · rw [if_neg h, if_neg h]; simp
    have sl : 0 ≤ Spec.slack u (sub.length + 5) := by
      have := (slack_bounds hu hu1 (i := 0) (j := 0) (k := sub.length + 5) (Nat.zero_le _) (Nat.zero_le _) (c := 1)).1 (by simp)
      linarith
    rw [eqn, abs_div, abs_of_pos dpos, div_le_iff₀ dpos]
    exact (hk.trans (mul_le_mul_of_nonneg_left habs sl)).trans_eq (mul_assoc _ _ _).symm

/-! ### Floating-point numbers are accurate -/

theorem halfEven_near (q : ℚ) : |(halfEven q : ℚ) - q| ≤ 1 / 2 := by
  have h1 := Int.floor_le q
  have h2 := Int.lt_floor_add_one q
  unfold halfEven
  rw [abs_le]
  split_ifs <;> push_cast <;> constructor <;> linarith

/-- Rounding to `p` binary digits changes a number by at most the `2 ^ p`-th part. -/
theorem floats_accurate (p : ℕ) (hp : 0 < p) : (floats p hp).Accurate (1 / 2 ^ p) := by
  have key : ∀ x : ℚ, 0 < x → |roundPos p x - x| ≤ 1 / 2 ^ p * x := by
    intro x hx
    have hu := two_pow_pos (Int.log 2 x + 1 - p)
    have e : roundPos p x - x =
        ((halfEven (x / 2 ^ (Int.log 2 x + 1 - p)) : ℚ) - x / 2 ^ (Int.log 2 x + 1 - p)) * 2 ^ (Int.log 2 x + 1 - p) := by
      unfold roundPos
      rw [sub_mul, div_mul_cancel₀ _ hu.ne']
    rw [e, abs_mul, abs_of_pos hu]
    refine (mul_le_mul_of_nonneg_right (halfEven_near _) hu.le).trans ?_
    have e2 : (2 : ℚ) ^ (Int.log 2 x + 1 - p) = 2 ^ Int.log 2 x * 2 / 2 ^ p := by
      rw [zpow_sub₀ (by norm_num), zpow_add₀ (by norm_num), zpow_one, zpow_natCast]
    rw [e2]
    have := (log_spec hx).1
    have hpp : (0 : ℚ) < 2 ^ p := by positivity
    rw [show (1 / 2 : ℚ) * (2 ^ Int.log 2 x * 2 / 2 ^ p) = 1 / 2 ^ p * 2 ^ Int.log 2 x by ring]
    exact mul_le_mul_of_nonneg_left this (by positivity)
  intro x
  show |roundTo p x - x| ≤ _
  unfold roundTo
  rcases lt_trichotomy 0 x with hx | hx | hx
  · rw [if_pos hx, abs_of_pos hx]
    exact key x hx
  · subst hx; simp
  · rw [if_neg (not_lt.2 hx.le), if_pos hx, abs_of_neg hx]
    have := key (-x) (neg_pos.2 hx)
    rw [show -roundPos p (-x) - x = -(roundPos p (-x) - -x) by ring, abs_neg]
    exact this

/-! ### C155 -/

/-- The filters `NBestFitness`, `RouletteWheel` and the default select some of the rules they are given. -/
def SubFilter.Selects (filt : SubFilter K d M) : Prop := ∀ sub sub', filt sub = .ok sub' → ∀ ρ ∈ sub', ρ ∈ sub

/-- C155: for every rounding with relative error at most `u`, every way of adding, and every filter: the rounded prediction exists, predicts 0 for
a sample which no rule used matches, and otherwise differs from the exact prediction by at most
`((1 + u) / (1 - u)) ^ (n + 5) - 1` times any bound of the local predictions, where `n` is the number of rules used. -/
theorem C155_close (R : Rounding K) (u : K) (hu : 0 ≤ u) (hu1 : u < 1) (hR : R.Accurate u) (S : Summation R) (L : Learner K d M)
    (P : MixParams K) (hw : 0 < P.weight) (hc : P.expCalc.Positive d) (filt : SubFilter K d M) (hf : filt.Selects)
    (σ : Solution K d M) (hlen : σ.genome.length = σ.pool.length) (hp : ∀ ρ ∈ σ.pool, ρ.Usable)
    (sub : List (Rule K d M)) (hsub : filt (compress σ.pool σ.genome) = .ok sub) (X : List (Point K d)) :
    ∃ out exact, R.predict S L P filt false σ X = .ok out ∧ σ.predict L P filt false X = .ok exact ∧
      out.length = X.length ∧ exact.length = X.length ∧
      ∀ (j : Nat) (hj : j < X.length) (v w : K), out[j]? = some v → exact[j]? = some w →
        ((∀ ρ ∈ sub, ρ.kind.call ρ.bounds X[j] = false) → v = 0 ∧ w = 0) ∧
        ∀ B, (∀ ρ ∈ sub, ρ.kind.call ρ.bounds X[j] = true → ∀ l, ρ.LocalPrediction L X[j] l → |l| ≤ B) → 0 ≤ B →
          |v - w| ≤ (((1 + u) / (1 - u)) ^ (sub.length + 5) - 1) * B := by
  have hpop : σ.subpopulation = .ok (compress σ.pool σ.genome) := by unfold Solution.subpopulation; rw [if_pos hlen]
  have huse : ∀ ρ ∈ sub, ρ.Usable := fun ρ h => hp ρ (mem_of_mem_compress (hf _ _ hsub ρ h))
  have sl : ∀ k, 0 ≤ Spec.slack u k := fun k => by
    have := (slack_bounds hu hu1 (i := 0) (j := 0) (k := k) (Nat.zero_le _) (Nat.zero_le _) (c := 1)).1 (by simp)
    linarith
  have none : ∀ x, (∀ ρ ∈ sub, ρ.kind.call ρ.bounds x = false) → mixAt L P sub x = 0 := by
    intro x hno
    have : sub.filter (fun ρ => ρ.kind.call ρ.bounds x) = [] := by
      rw [List.filter_eq_nil_iff]; intro ρ h; rw [hno ρ h]; simp
    simp [mixAt, numAt, this]
  by_cases hne : (compress σ.pool σ.genome).isEmpty
  · refine ⟨List.replicate X.length 0, List.replicate X.length 0, ?_, ?_, by simp, by simp, ?_⟩
    · unfold Rounding.predict Rounding.mixing; rw [hpop]; simp only; rw [if_pos hne]
    · unfold Solution.predict mixing; rw [hpop]; simp only; rw [if_pos hne]
    · intro j hj v w hv hw
      rw [List.getElem?_replicate, if_pos hj] at hv hw
      cases hv; cases hw
      refine ⟨fun _ => ⟨rfl, rfl⟩, fun B _ hB => ?_⟩
      rw [sub_self, abs_zero]
      exact mul_nonneg (sl _) hB
  · have hloc : ∀ ρ ∈ sub, ρ.localPred L false X = .ok (X.map (ρ.kind.call ρ.bounds),
        X.map fun x => if ρ.kind.call ρ.bounds x then ρ.valueAt L x else 0) :=
      fun ρ h => ρ.localPred_uncached L X (huse ρ h).ready
    refine ⟨X.map (R.mixAt S L P sub), X.map (mixAt L P sub), ?_, ?_, by simp, by simp, ?_⟩
    · unfold Rounding.predict Rounding.mixing; rw [hpop]; simp only; rw [if_neg hne, hsub]
      exact R.mixRules_of_state S L P false X sub (fun ρ h => (huse ρ h).ready.1) hloc
    · unfold Solution.predict mixing; rw [hpop]; simp only; rw [if_neg hne, hsub]
      exact mixRules_uncached L P X sub fun ρ h => (huse ρ h).ready
    · intro j hj v w hv hw'
      rw [List.getElem?_map, List.getElem?_eq_getElem hj] at hv hw'
      cases hv; cases hw'
      obtain ⟨h1, h2⟩ := mixAt_near hu hu1 hR S L P hw hc sub huse X[j]
      refine ⟨fun hno => ⟨h1 hno, none _ hno⟩, fun B hB hB0 => ?_⟩
      by_cases hm : ∃ ρ ∈ sub, ρ.kind.call ρ.bounds X[j] = true
      · refine h2 hm B fun ρ hρ hρm => ?_
        obtain ⟨s, m, e, _, hmod, _⟩ := huse ρ hρ
        exact hB ρ hρ hρm _ ⟨m, hmod, ρ.valueAt_of_model L m hmod _⟩
      · have hno : ∀ ρ ∈ sub, ρ.kind.call ρ.bounds X[j] = false := fun ρ hρ => by
          by_contra h
          exact hm ⟨ρ, hρ, by simpa using h⟩
        rw [h1 hno, none _ hno, sub_self, abs_zero]
        exact mul_nonneg (sl _) hB0

/-- The allowed relative error is about `2 k u`. -/
theorem slack_le {u : K} (hu : 0 ≤ u) (k : Nat) (hk : 2 * (k : K) * u ≤ 1 / 2) : Spec.slack u k ≤ 4 * (k : K) * u := by
  rcases Nat.eq_zero_or_pos k with rfl | hk0
  · simp [Spec.slack]
  have hk1 : (1 : K) ≤ (k : K) := by exact_mod_cast hk0
  have hu2 : u ≤ 1 / 4 := by nlinarith
  have p : (0 : K) < 1 - u := by linarith
  have q : (0 : K) < 1 + u := by linarith
  have b : 1 - 2 * (k : K) * u ≤ ((1 - u) / (1 + u)) ^ k := by
    have h1 : 1 + (k : K) * (-2 * u) ≤ (1 + -2 * u) ^ k := one_add_mul_le_pow (by linarith) k
    have h2 : 1 + -2 * u ≤ (1 - u) / (1 + u) := by
      rw [le_div_iff₀ q]
      nlinarith [mul_nonneg hu hu]
    have h3 := pow_le_pow_left₀ (by linarith) h2 k
    linarith
  have e : ((1 + u) / (1 - u)) ^ k = 1 / ((1 - u) / (1 + u)) ^ k := by
    rw [← one_div_pow, one_div_div]
  have t : (0 : K) < 1 - 2 * (k : K) * u := by linarith
  unfold Spec.slack
  rw [e]
  have h4 : 1 / ((1 - u) / (1 + u)) ^ k ≤ 1 / (1 - 2 * (k : K) * u) := one_div_le_one_div_of_le t b
  have h5 : 1 / (1 - 2 * (k : K) * u) ≤ 1 + 4 * (k : K) * u := by
    rw [div_le_iff₀ t]
    have : 0 ≤ 2 * (k : K) * u := by positivity
    nlinarith
  linarith

theorem slack_float64 {u : ℚ} (hu : u = 1 / 2 ^ 53) (k : Nat) (hk : k ≤ 1000005) : Spec.slack u k ≤ 1 / 1000000000 := by
  have hk : (k : ℚ) ≤ 1000005 := by exact_mod_cast hk
  have hu0 : 0 ≤ u := by rw [hu]; norm_num
  have hu2 : u ≤ 1 / 9000000000000000 := by rw [hu]; norm_num
  have h0 := mul_le_mul hk hu2 hu0 (by norm_num)
  norm_num at h0
  have := slack_le hu0 k (by linarith)
  linarith

/-- C155 for the usual arithmetic (53 binary digits): with at most a million rules, predictions are exact up to a billionth of the
largest local prediction. -/
theorem C155_float64 (S : Summation float64) (L : Learner ℚ d M)
    (P : MixParams ℚ) (hw : 0 < P.weight) (hc : P.expCalc.Positive d) (filt : SubFilter ℚ d M) (hf : filt.Selects)
    (σ : Solution ℚ d M) (hlen : σ.genome.length = σ.pool.length) (hp : ∀ ρ ∈ σ.pool, ρ.Usable)
    (sub : List (Rule ℚ d M)) (hsub : filt (compress σ.pool σ.genome) = .ok sub) (hn : sub.length ≤ 1000000) (X : List (Point ℚ d)) :
    ∃ out exact, float64.predict S L P filt false σ X = .ok out ∧ σ.predict L P filt false X = .ok exact ∧
      out.length = X.length ∧ exact.length = X.length ∧
      ∀ (j : Nat) (hj : j < X.length) (v w : ℚ), out[j]? = some v → exact[j]? = some w →
        ∀ B, (∀ ρ ∈ sub, ρ.kind.call ρ.bounds X[j] = true → ∀ l, ρ.LocalPrediction L X[j] l → |l| ≤ B) → 0 ≤ B →
          |v - w| ≤ B / 1000000000 := by
  obtain ⟨u, hu⟩ : ∃ u : ℚ, u = 1 / 2 ^ 53 := ⟨_, rfl⟩
  have hacc : float64.Accurate u := by rw [hu]; exact floats_accurate 53 (by norm_num)
  have hu0 : 0 ≤ u := by rw [hu]; norm_num
  have hu1 : u < 1 := by rw [hu]; norm_num
  obtain ⟨out, ex, h1, h2, h3, h4, h5⟩ := C155_close float64 u hu0 hu1 hacc S L P hw hc filt hf σ hlen hp sub hsub X
  refine ⟨out, ex, h1, h2, h3, h4, fun j hj v w hv hw B hB hB0 => ((h5 j hj v w hv hw).2 B hB hB0).trans ?_⟩
  have h6 := slack_float64 hu (sub.length + 5) (by omega)
  unfold Spec.slack at h6
  exact (mul_le_mul_of_nonneg_right h6 hB0).trans_eq (one_div_mul_eq_div _ _)

/-- C155: neither the order of the rules nor the order of the additions matters by more than twice that. -/
theorem C155_order (R : Rounding K) (u : K) (hu : 0 ≤ u) (hu1 : u < 1) (hR : R.Accurate u) (S S' : Summation R) (L : Learner K d M)
    (P : MixParams K) (hw : 0 < P.weight) (hc : P.expCalc.Positive d)
    (σ σ' : Solution K d M) (hlen : σ.genome.length = σ.pool.length) (hlen' : σ'.genome.length = σ'.pool.length)
    (hp : ∀ ρ ∈ σ.pool, ρ.Usable) (hperm : (σ.pool.zip σ.genome).Perm (σ'.pool.zip σ'.genome)) (X : List (Point K d)) :
    ∃ out out', R.predict S L P filterAll false σ X = .ok out ∧ R.predict S' L P filterAll false σ' X = .ok out' ∧
      out.length = X.length ∧ out'.length = X.length ∧
      ∀ (j : Nat) (hj : j < X.length) (v v' : K), out[j]? = some v → out'[j]? = some v' →
        ∀ B, (∀ ρ ∈ compress σ.pool σ.genome, ρ.kind.call ρ.bounds X[j] = true → ∀ l, ρ.LocalPrediction L X[j] l → |l| ≤ B) → 0 ≤ B →
          |v - v'| ≤ 2 * ((((1 + u) / (1 - u)) ^ ((compress σ.pool σ.genome).length + 5) - 1) * B) := by
  have hsel : (filterAll : SubFilter K d M).Selects := fun sub sub' h ρ hρ => by cases h; exact hρ
  have hcp := compress_perm _ _ _ _ hperm
  have hp' : ∀ ρ ∈ σ'.pool, ρ.Usable := by
    intro ρ hρ
    have : ρ ∈ (σ'.pool.zip σ'.genome).map Prod.fst := by rw [List.map_fst_zip (by omega)]; exact hρ
    obtain ⟨q, hq, rfl⟩ := List.mem_map.1 this
    exact hp _ (List.of_mem_zip (hperm.symm.subset hq)).1
  obtain ⟨out, ex, h1, h2, h3, h4, h5⟩ := C155_close R u hu hu1 hR S L P hw hc filterAll hsel σ hlen hp _ rfl X
  obtain ⟨out', ex', g1, g2, g3, g4, g5⟩ := C155_close R u hu hu1 hR S' L P hw hc filterAll hsel σ' hlen' hp' _ rfl X
  obtain ⟨o, e1, e2⟩ := C19_order_invariant L P σ σ' hlen hlen' hp hperm X
  rw [h2] at e1; cases e1
  rw [g2] at e2; cases e2
  refine ⟨out, out', h1, g1, h3, g3, fun j hj v v' hv hv' B hB hB0 => ?_⟩
  have hjx : j < ex.length := h4 ▸ hj
  have a := (h5 j hj v ex[j] hv (List.getElem?_eq_getElem hjx)).2 B hB hB0
  have b := (g5 j hj v' ex[j] hv' (List.getElem?_eq_getElem hjx)).2 B (fun ρ hρ => hB ρ (hcp.symm.subset hρ)) hB0
  rw [← hcp.length_eq] at b
  have t := abs_sub_le v ex[j] v'
  rw [abs_sub_comm ex[j] v'] at t
  linarith

/-- Adding from left to right, as `np.sum` over the rows of a matrix. -/
def Summation.leftToRight (R : Rounding K) : Summation R where
  sum l := match l with
    | [] => 0
    | x :: xs => xs.foldl (fun a b => R.rnd (a + b)) x
  ok l := by
    cases l with
    | nil => exact .nil
    | cons x xs =>
      induction xs using List.reverseRecOn with
      | nil => exact .one x
      | append_singleton ys y ih =>
        show R.Sums (x :: (ys ++ [y])) ((ys ++ [y]).foldl (fun a b => R.rnd (a + b)) x)
        rw [List.foldl_append, ← List.cons_append]
        exact .add (by simp) (by simp) ih (.one y)

/-- The example pool of C17 with its usual arithmetic. -/
example : ∃ out, float64.predict (Summation.leftToRight float64) meanLearner ⟨.plain, 1⟩ filterAll false
    { genome := [true, true, false], pool := examplePool } [![0], ![3/2], ![3], ![4]] = .ok out ∧ out.length = 4 ∧
    ∀ v, out[1]? = some v → |v - 23 / 7| ≤ 5 / 1000000000 := by
  have hp : ∀ ρ ∈ examplePool, ρ.Usable := by
    simp only [examplePool, List.forall_mem_cons, List.not_mem_nil, false_imp_iff, implies_true, and_true]
    exact ⟨fittedRule_usable _ _ _ _ _ (by norm_num) (by norm_num), fittedRule_usable _ _ _ _ _ (by norm_num) (by norm_num),
      fittedRule_usable _ _ _ _ _ (by norm_num) (by norm_num)⟩
  obtain ⟨out, ex, h1, h2, h3, h4, h5⟩ := C155_float64 (Summation.leftToRight float64) meanLearner ⟨.plain, 1⟩ one_pos
    (ExpCalc.plain_positive 1) filterAll (fun sub sub' h ρ hρ => by cases h; exact hρ)
    { genome := [true, true, false], pool := examplePool } rfl hp _ rfl (by decide) [![0], ![3/2], ![3], ![4]]
  have e : Solution.predict meanLearner ⟨.plain, 1⟩ filterAll false
    { genome := [true, true, false], pool := examplePool } [![0], ![3/2], ![3], ![4]] = .ok [1, 23/7, 5, 0] := by decide +kernel
  rw [e] at h2; cases h2
  refine ⟨out, h1, h3, fun v hv => h5 1 (by decide) v _ hv rfl 5 ?_ (by norm_num)⟩
  intro ρ hρ _ l hl
  obtain ⟨m, hm, rfl⟩ := hl
  have hρ' : ρ ∈ [fittedRule 0 2 1 1 3, fittedRule 1 3 5 (1/2) 2] := hρ
  simp only [List.mem_cons, List.not_mem_nil, or_false] at hρ'
  rcases hρ' with rfl | rfl <;> cases hm <;> norm_num [meanLearner]

/-- Rounding does make a difference: two rules which both predict 3 (errors 1 and 3, experiences 1 and 2) together predict `3 + 2⁻⁵¹`, more than
each of them, so C17 holds up to rounding only. -/
example : float64.predict (Summation.leftToRight float64) meanLearner ⟨.plain, 1⟩ filterAll false
    { genome := [true, true], pool := [fittedRule 0 3 3 1 1, fittedRule 0 3 3 3 2] } [![1]] = .ok [3 + 1 / 2 ^ 51] := by
  have r1 : roundTo 53 1 = 1 := by
    rw [roundTo_eq 53 (e := 0) (by norm_num) (by norm_num),
      show (1 : ℚ) / 2 ^ ((0 : ℤ) + 1 - (53 : ℕ)) = ((2 ^ 52 : ℤ) : ℚ) by norm_num, halfEven_int]
    norm_num
  have r2 : roundTo 53 2 = 2 := by
    rw [roundTo_eq 53 (e := 1) (by norm_num) (by norm_num),
      show (2 : ℚ) / 2 ^ ((1 : ℤ) + 1 - (53 : ℕ)) = ((2 ^ 52 : ℤ) : ℚ) by norm_num, halfEven_int]
    norm_num
  have r3 : roundTo 53 3 = 3 := by
    rw [roundTo_eq 53 (e := 1) (by norm_num) (by norm_num),
      show (3 : ℚ) / 2 ^ ((1 : ℤ) + 1 - (53 : ℕ)) = ((3 * 2 ^ 51 : ℤ) : ℚ) by norm_num, halfEven_int]
    norm_num
  have r4 : roundTo 53 (1 / 3) = 6004799503160661 / 2 ^ 54 := by
    rw [roundTo_eq 53 (e := -2) (by norm_num) (by norm_num),
      show (1 / 3 : ℚ) / 2 ^ ((-2 : ℤ) + 1 - (53 : ℕ)) = 2 ^ 54 / 3 by norm_num,
      show halfEven (2 ^ 54 / 3) = 6004799503160661 by decide +kernel]
    norm_num
  have r5 : roundTo 53 (6004799503160661 / 2 ^ 54 * 2) = 6004799503160661 / 2 ^ 53 := by
    rw [roundTo_eq 53 (e := -1) (by norm_num) (by norm_num),
      show (6004799503160661 / 2 ^ 54 * 2 : ℚ) / 2 ^ ((-1 : ℤ) + 1 - (53 : ℕ)) = ((6004799503160661 : ℤ) : ℚ) by norm_num, halfEven_int]
    norm_num
  have r6 : roundTo 53 (3 * (6004799503160661 / 2 ^ 53)) = 2 := by
    rw [roundTo_eq 53 (e := 0) (by norm_num) (by norm_num),
      show (3 * (6004799503160661 / 2 ^ 53) : ℚ) / 2 ^ ((0 : ℤ) + 1 - (53 : ℕ)) = 18014398509481983 / 2 by norm_num,
      show halfEven (18014398509481983 / 2) = 9007199254740992 by decide +kernel]
    norm_num
  have r7 : roundTo 53 (3 + 2) = 5 := by
    rw [roundTo_eq 53 (e := 2) (by norm_num) (by norm_num),
      show (3 + 2 : ℚ) / 2 ^ ((2 : ℤ) + 1 - (53 : ℕ)) = ((5 * 2 ^ 50 : ℤ) : ℚ) by norm_num, halfEven_int]
    norm_num
  have r8 : roundTo 53 (1 + 6004799503160661 / 2 ^ 53) = 7505999378950826 / 2 ^ 52 := by
    rw [roundTo_eq 53 (e := 0) (by norm_num) (by norm_num),
      show (1 + 6004799503160661 / 2 ^ 53 : ℚ) / 2 ^ ((0 : ℤ) + 1 - (53 : ℕ)) = 15011998757901653 / 2 by norm_num,
      show halfEven (15011998757901653 / 2) = 7505999378950826 by decide +kernel]
    norm_num
  have r9 : roundTo 53 (5 / (7505999378950826 / 2 ^ 52)) = 3 + 1 / 2 ^ 51 := by
    rw [roundTo_eq 53 (e := 1) (by norm_num) (by norm_num),
      show (5 / (7505999378950826 / 2 ^ 52) : ℚ) / 2 ^ ((1 : ℤ) + 1 - (53 : ℕ)) = 5 * 2 ^ 103 / 7505999378950826 by norm_num,
      show halfEven (5 * 2 ^ 103 / 7505999378950826) = 6755399441055745 by decide +kernel]
    norm_num
  have use : ∀ ρ ∈ [fittedRule 0 3 3 1 1, fittedRule 0 3 3 3 2], ρ.Usable := by
    simp only [List.forall_mem_cons, List.not_mem_nil, false_imp_iff, implies_true, and_true]
    exact ⟨fittedRule_usable _ _ _ _ _ (by norm_num) (by norm_num), fittedRule_usable _ _ _ _ _ (by norm_num) (by norm_num)⟩
  have t1 : float64.tauVal ⟨.plain, 1⟩ (fittedRule 0 3 3 1 1) = 1 := by
    show roundTo 53 (roundTo 53 (1 / 1) * roundTo 53 (roundTo 53 ((1 : ℕ) : ℚ) * 1)) = 1
    norm_num [r1]
  have t2 : float64.tauVal ⟨.plain, 1⟩ (fittedRule 0 3 3 3 2) = 6004799503160661 / 2 ^ 53 := by
    show roundTo 53 (roundTo 53 (1 / 3) * roundTo 53 (roundTo 53 ((2 : ℕ) : ℚ) * 1)) = _
    rw [show ((2 : ℕ) : ℚ) = 2 by norm_num, r2, mul_one, r2, r4, r5]
  have e : float64.mixAt (Summation.leftToRight float64) meanLearner ⟨.plain, 1⟩ [fittedRule 0 3 3 1 1, fittedRule 0 3 3 3 2] ![1] =
      3 + 1 / 2 ^ 51 := by
    have m1 : (fittedRule 0 3 3 1 1).kind.call (fittedRule 0 3 3 1 1).bounds ![1] = true := by decide +kernel
    have m2 : (fittedRule 0 3 3 3 2).kind.call (fittedRule 0 3 3 3 2).bounds ![1] = true := by decide +kernel
    unfold Rounding.mixAt
    simp only [List.map_cons, List.map_nil, m1, m2, if_true, t1, t2]
    show roundTo 53 (roundTo 53 (roundTo 53 (3 * 1) + roundTo 53 (3 * (6004799503160661 / 2 ^ 53))) /
      (if roundTo 53 (1 + 6004799503160661 / 2 ^ 53) = 0 then 1 else roundTo 53 (1 + 6004799503160661 / 2 ^ 53))) = _
    rw [mul_one, r3, r6, r7, r8, if_neg (by norm_num), r9]
  have := float64.mixRules_of_state (Summation.leftToRight float64) meanLearner ⟨.plain, 1⟩ false [![1]] _
    (fun ρ h => (use ρ h).ready.1) fun ρ h => ρ.localPred_uncached meanLearner [![1]] (use ρ h).ready
  show float64.mixRules _ _ _ _ _ _ = _
  refine this.trans ?_
  simp only [List.map_cons, List.map_nil, e]

/-! ### C156 -/

theorem rounded_mse_near {u : K} (hu : 0 ≤ u) (hu1 : u < 1) {R : Rounding K} (hR : R.Accurate u) (S : Summation R) (y pred : List K)
    (hlen : pred.length = y.length) (hn : 0 < y.length) :
    (1 - Spec.slack u (y.length + 3)) * mse y pred ≤ R.mse S y pred ∧
      R.mse S y pred ≤ (1 + Spec.slack u (y.length + 3)) * mse y pred := by
  have p : (0 : K) < 1 - u := by linarith
  have pq : (0 : K) < 1 + u := by linarith
  have hnK : (0 : K) < (y.length : K) := by exact_mod_cast hn
  obtain ⟨q, hq, eq⟩ := sums_near hu hu1 hR (k := 3) (S.ok (List.zipWith (fun a b => R.rnd (R.rnd (a - b) ^ 2)) y pred))
    (l := List.zipWith (fun a b => (a - b) ^ 2) y pred) (by
      clear hlen hn hnK
      induction y generalizing pred with
      | nil => exact .nil
      | cons a as ih =>
        cases pred with
        | nil => exact .nil
        | cons b bs =>
          refine .cons ?_ (ih bs)
          have h1 := Near.rnd_one hR (a - b)
          have h2 := Near.rnd hu hu1 hR (Near.mul hu hu1 h1 h1)
          rw [← pow_two, ← pow_two] at h2
          exact h2)
  have hl : (List.zipWith (fun a b => (a - b) ^ 2) y pred).length = y.length := by
    rw [List.length_zipWith, hlen, min_self]
  rw [hl, show 3 + (y.length - 1) = y.length + 2 by omega] at hq
  obtain ⟨s1, s2⟩ := near_sum_nonneg (fun a ha => by
    obtain ⟨i, hi, rfl⟩ := List.getElem_of_mem ha
    rw [List.getElem_zipWith]
    exact sq_nonneg _) hq
  have s0 : 0 ≤ (List.zipWith (fun a b => (a - b) ^ 2) y pred).sum := List.sum_nonneg fun a ha => by
    obtain ⟨i, hi, rfl⟩ := List.getElem_of_mem ha
    rw [List.getElem_zipWith]
    exact sq_nonneg _
  have hN := (near_pos_iff hnK).1 (Near.rnd_one hR (y.length : K))
  rw [pow_one, pow_one] at hN
  have hN0 : 0 < R.rnd (y.length : K) := (mul_pos p hnK).trans_le hN.1
  obtain ⟨η, eη, b1, b2⟩ := Near.rnd_one hR (q.sum / R.rnd (y.length : K))
  rw [pow_one] at b1 b2
  have em : R.mse S y pred = η * (q.sum / R.rnd (y.length : K)) := by
    unfold Rounding.mse; rw [eq]; exact eη
  have η0 : 0 ≤ η := p.le.trans b1
  have q0 : 0 ≤ q.sum := (mul_nonneg (pow_nonneg p.le _) s0).trans s1
  have m0 : 0 ≤ mse y pred := div_nonneg s0 hnK.le
  rw [em]
  constructor
  · have lo : (1 - u) ^ (y.length + 3) / (1 + u) ^ 1 * mse y pred ≤ η * (q.sum / R.rnd (y.length : K)) := by
      have r : (1 - u) ^ (y.length + 2) / (1 + u) * mse y pred ≤ q.sum / R.rnd (y.length : K) := by
        unfold mse
        rw [div_mul_div_comm, div_le_div_iff₀ (mul_pos pq hnK) hN0]
        exact mul_le_mul s1 hN.2 hN0.le q0
      refine le_trans (le_of_eq ?_) (mul_le_mul b1 r (mul_nonneg (div_nonneg (pow_nonneg p.le _) pq.le) m0) η0)
      rw [pow_one, show y.length + 3 = 1 + (y.length + 2) by omega, pow_add _ 1, pow_one]
      ring
    exact (mul_le_mul_of_nonneg_right
      ((slack_bounds hu hu1 (i := y.length + 3) (j := 1) (k := y.length + 3) le_rfl (by omega)).2 le_rfl) m0).trans lo
  · have hi : η * (q.sum / R.rnd (y.length : K)) ≤ (1 + u) ^ (y.length + 3) / (1 - u) ^ 1 * mse y pred := by
      have r : q.sum / R.rnd (y.length : K) ≤ (1 + u) ^ (y.length + 2) / (1 - u) * mse y pred := by
        unfold mse
        rw [div_mul_div_comm, div_le_div_iff₀ hN0 (mul_pos p hnK)]
        exact mul_le_mul s2 hN.1 (mul_pos p hnK).le (mul_nonneg (pow_nonneg pq.le _) s0)
      refine (mul_le_mul b2 r (div_nonneg q0 hN0.le) pq.le).trans (le_of_eq ?_)
      rw [pow_one, show y.length + 3 = 1 + (y.length + 2) by omega, pow_add _ 1, pow_one]
      ring
    exact hi.trans (mul_le_mul_of_nonneg_right
      ((slack_bounds hu hu1 (i := y.length + 3) (j := 1) (k := y.length + 3) le_rfl (by omega)).1 le_rfl) m0)

theorem rounded_storedError_near {u : K} (hu : 0 ≤ u) (hu1 : u < 1) {R : Rounding K} (hR : R.Accurate u) (S : Summation R) (y pred : List K)
    (hlen : pred.length = y.length) (hn : 0 < y.length) :
    |R.storedError S y pred - max (mse y pred) errorFloor| ≤ Spec.slack u (y.length + 3) * max (mse y pred) errorFloor := by
  obtain ⟨h1, h2⟩ := rounded_mse_near hu hu1 hR S y pred hlen hn
  have p : (0 : K) < 1 - u := by linarith
  have pq : (0 : K) < 1 + u := by linarith
  have f0 : (0 : K) < errorFloor := by unfold errorFloor; norm_num
  have hF := (near_pos_iff f0).1 (Near.rnd_one hR (errorFloor : K))
  have c1 : 1 - Spec.slack u (y.length + 3) ≤ (1 - u) ^ 1 :=
    (slack_bounds hu hu1 (i := 1) (j := 0) (by omega) (by omega)).2 (by simp)
  have c2 : (1 + u) ^ 1 ≤ 1 + Spec.slack u (y.length + 3) :=
    (slack_bounds hu hu1 (i := 1) (j := 0) (by omega) (by omega)).1 (by simp)
  have g1 := (mul_le_mul_of_nonneg_right c1 f0.le).trans hF.1
  have g2 := hF.2.trans (mul_le_mul_of_nonneg_right c2 f0.le)
  unfold Rounding.storedError
  rw [abs_le]
  rcases max_cases (mse y pred) (errorFloor : K) with ⟨e, hc⟩ | ⟨e, hc⟩ <;>
    rcases max_cases (R.mse S y pred) (R.rnd errorFloor) with ⟨e', hc'⟩ | ⟨e', hc'⟩ <;> rw [e, e'] <;> constructor
  · linarith
  · linarith
  · linarith
  · have : (1 + Spec.slack u (y.length + 3)) * errorFloor ≤ (1 + Spec.slack u (y.length + 3)) * mse y pred :=
      mul_le_mul_of_nonneg_left hc (by linarith [pow_one (1 + u)])
    linarith
  · linarith
  · have : (1 + Spec.slack u (y.length + 3)) * mse y pred ≤ (1 + Spec.slack u (y.length + 3)) * errorFloor :=
      mul_le_mul_of_nonneg_left hc.le (by linarith [pow_one (1 + u)])
    linarith
  · linarith
  · linarith

/-- C156 for rules: the error recorded when a rule is trained differs from the exact one (the mean squared error of its recorded predictions on its matched
samples, at least `1e-4`) by at most the `((1 + u) / (1 - u)) ^ (n + 3) - 1`-th part of it, where `n` is the number of these samples. -/
theorem C156_rule (R : Rounding K) (u : K) (hu : 0 ≤ u) (hu1 : u < 1) (hR : R.Accurate u) (S : Summation R) (L : Learner K d M)
    (ff : RuleFitness K d) (X : List (Point K d)) (y : List K) (ρ ρ' : Rule K d M) (hm : (ρ.matchRows X).any id = true)
    (h : R.refit S L ff X y (ρ.matchRows X) ρ = .ok ρ') :
    ∃ s e, ρ'.st = some s ∧ s.error = ((e : K) : WithTop K) ∧ s.pred.length = (compress y (ρ.matchRows X)).length ∧
      |e - max (meanSqDiff (compress y (ρ.matchRows X)) s.pred) (1 / 10000)| ≤
        (((1 + u) / (1 - u)) ^ ((compress y (ρ.matchRows X)).length + 3) - 1) *
          max (meanSqDiff (compress y (ρ.matchRows X)) s.pred) (1 / 10000) := by
  unfold Rounding.refit at h
  split_ifs at h with hxy
  have hxy : y.length = X.length := by simpa using hxy
  cases h
  have hl : (compress X (ρ.matchRows X)).length = (compress y (ρ.matchRows X)).length := by
    rw [length_compress _ _ (by rw [Rule.length_matchRows]), length_compress _ _ (by rw [Rule.length_matchRows, hxy])]
  have hpos : 0 < (compress y (ρ.matchRows X)).length := by
    rw [length_compress _ _ (by rw [Rule.length_matchRows, hxy]), List.count_pos_iff]
    obtain ⟨b, hb, hb1⟩ := List.any_eq_true.1 hm
    have : b = true := hb1
    exact this ▸ hb
  refine ⟨_, _, rfl, rfl, by rw [List.length_map, hl], ?_⟩
  have := rounded_storedError_near hu hu1 hR S (compress y (ρ.matchRows X))
    ((compress X (ρ.matchRows X)).map (L.predict (L.fit (compress X (ρ.matchRows X)) (compress y (ρ.matchRows X)))))
    (by rw [List.length_map, hl]) hpos
  simpa only [mse, errorFloor, meanSqDiff, List.zip, List.map_zipWith, Spec.slack] using this

/-- C156 for solutions: the error recorded for a solution differs from the exact one (the mean squared error of the predictions it makes, at least
`1e-4`) by at most the `((1 + u) / (1 - u)) ^ (n + 3) - 1`-th part of it, where `n` is the number of samples. -/
theorem C156_solution (R : Rounding K) (u : K) (hu : 0 ≤ u) (hu1 : u < 1) (hR : R.Accurate u) (S : Summation R) (L : Learner K d M)
    (P : MixParams K) (filt : SubFilter K d M) (sf : SolFitness K) (X : List (Point K d)) (y : List K) (σ τ : Solution K d M)
    (h : R.fitSolution S L P filt sf X y σ = .ok τ) :
    ∃ s pred, τ.st = some s ∧ R.predict S L P filt true σ X = .ok pred ∧ pred.length = y.length ∧
      |s.error - max (meanSqDiff y pred) (1 / 10000)| ≤
        (((1 + u) / (1 - u)) ^ (y.length + 3) - 1) * max (meanSqDiff y pred) (1 / 10000) := by
  unfold Rounding.fitSolution at h
  cases hp : R.predict S L P filt true σ X with
  | error err => rw [hp] at h; cases h
  | ok pred =>
    rw [hp] at h
    simp only at h
    split_ifs at h with hbad
    cases h
    push Not at hbad
    refine ⟨_, pred, rfl, rfl, hbad.1.symm, ?_⟩
    have := rounded_storedError_near hu hu1 hR S y pred hbad.1.symm (Nat.pos_of_ne_zero hbad.2)
    simpa only [mse, errorFloor, meanSqDiff, List.zip, List.map_zipWith, Spec.slack] using this

/-- C156 for the usual arithmetic: with at most a million samples, recorded errors are exact up to a billionth. -/
theorem C156_float64 (n : Nat) (hn : n ≤ 1000000) (u : ℚ) (hu : u = 1 / 2 ^ 53) :
    float64.Accurate u ∧ ((1 + u) / (1 - u)) ^ (n + 3) - 1 ≤ 1 / 1000000000 := by
  refine ⟨by rw [hu]; exact floats_accurate 53 (by norm_num), ?_⟩
  have := slack_float64 hu (n + 3) (by omega)
  unfold Spec.slack at this
  exact this

/-- The hypotheses are met by the rule `[0, 2]` for three samples, two of them matched. -/
example : ((intervalRule 0 2).matchRows [![0], ![1], ![3]]).any id = true ∧
    ∃ ρ', float64.refit (Summation.leftToRight float64) meanLearner (fun e _ _ _ => -e) [![0], ![1], ![3]] [1, 2, 3]
      ((intervalRule 0 2).matchRows [![0], ![1], ![3]]) (intervalRule 0 2) = .ok ρ' :=
  ⟨by decide +kernel, _, rfl⟩

end Suprb
