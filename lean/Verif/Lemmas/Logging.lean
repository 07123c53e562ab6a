import Verif.Model.Logging
import Verif.Props.Default
import Mathlib.Tactic.Linarith
import Mathlib.Tactic.Ring
import Mathlib.Tactic.FieldSimp
import Mathlib.Algebra.Order.BigOperators.Group.List
import Mathlib.Data.List.MinMax

/-!
# Lemmas about the logged statistics
-/

set_option autoImplicit false
set_option linter.unusedSectionVars false

namespace Suprb

open Spec

variable {K : Type} [Field K] [LinearOrder K] [IsStrictOrderedRing K] [FloorSemiring K] {d : Nat} {M : Type}

theorem getD_mono (s : List K) (hs : s.Pairwise (· ≤ ·)) (i j : Nat) (hij : i ≤ j) (hj : j < s.length) : s.getD i 0 ≤ s.getD j 0 := by
  have hi : i < s.length := lt_of_le_of_lt hij hj
  simp only [List.getD_eq_getElem?_getD, List.getElem?_eq_getElem hi, List.getElem?_eq_getElem hj, Option.getD_some]
  rcases Nat.lt_or_ge i j with h | h
  · exact List.pairwise_iff_getElem.mp hs i j hi hj h
  · have : i = j := le_antisymm hij h
    subst this; exact le_refl _

theorem getD_mem (s : List K) (i : Nat) (hi : i < s.length) : s.getD i 0 ∈ s := by
  simp only [List.getD_eq_getElem?_getD, List.getElem?_eq_getElem hi, Option.getD_some]
  exact List.getElem_mem hi

/-- The three cases of the interpolation: the value lies between two neighbouring sorted values. -/
theorem interpolate_cases (s : List K) (hs : s.Pairwise (· ≤ ·)) (hne : s ≠ []) (v : K) :
    (v < 0 ∧ interpolate s v = s.getD 0 0) ∨
    (0 ≤ v ∧ (s.length : K) - 1 ≤ v ∧ interpolate s v = s.getD (s.length - 1) 0) ∨
    (∃ i, 0 ≤ v ∧ v < (s.length : K) - 1 ∧ i = ⌊v⌋₊ ∧ (i : K) ≤ v ∧ v < (i : K) + 1 ∧ i + 1 < s.length ∧
      interpolate s v = s.getD i 0 + (s.getD (i + 1) 0 - s.getD i 0) * (v - (i : K)) ∧
      s.getD i 0 ≤ interpolate s v ∧ interpolate s v ≤ s.getD (i + 1) 0) := by
  have hl : 1 ≤ s.length := List.length_pos_iff.mpr hne
  unfold interpolate
  by_cases h1 : v < 0
  · left; rw [if_pos h1]; exact ⟨h1, rfl⟩
  · right
    rw [if_neg h1]
    push Not at h1
    by_cases h2 : (s.length : K) - 1 ≤ v
    · left; rw [if_pos h2]; exact ⟨h1, h2, rfl⟩
    · right
      rw [if_neg h2]
      push Not at h2
      have ha : ((⌊v⌋₊ : Nat) : K) ≤ v := Nat.floor_le h1
      have hb : v < ((⌊v⌋₊ : Nat) : K) + 1 := Nat.lt_floor_add_one v
      have hc : ⌊v⌋₊ + 1 < s.length := by
        have : ((⌊v⌋₊ + 1 : Nat) : K) < (s.length : K) := by push_cast; linarith
        exact_mod_cast this
      have hd := getD_mono s hs ⌊v⌋₊ (⌊v⌋₊ + 1) (Nat.le_succ _) hc
      refine ⟨⌊v⌋₊, h1, h2, rfl, ha, hb, hc, rfl, ?_, ?_⟩
      · have : 0 ≤ (s.getD (⌊v⌋₊ + 1) 0 - s.getD ⌊v⌋₊ 0) * (v - (⌊v⌋₊ : K)) := mul_nonneg (by linarith) (by linarith)
        linarith
      · have : (s.getD (⌊v⌋₊ + 1) 0 - s.getD ⌊v⌋₊ 0) * (v - (⌊v⌋₊ : K)) ≤ (s.getD (⌊v⌋₊ + 1) 0 - s.getD ⌊v⌋₊ 0) * 1 :=
          mul_le_mul_of_nonneg_left (by linarith) (by linarith)
        linarith

theorem interpolate_bounds (s : List K) (hs : s.Pairwise (· ≤ ·)) (hne : s ≠ []) (v : K) :
    s.getD 0 0 ≤ interpolate s v ∧ interpolate s v ≤ s.getD (s.length - 1) 0 := by
  have hl : 1 ≤ s.length := List.length_pos_iff.mpr hne
  rcases interpolate_cases s hs hne v with ⟨_, h⟩ | ⟨_, _, h⟩ | ⟨i, _, _, _, _, _, hi, _, h1, h2⟩
  · rw [h]; exact ⟨le_refl _, getD_mono s hs _ _ (Nat.zero_le _) (by omega)⟩
  · rw [h]; exact ⟨getD_mono s hs _ _ (Nat.zero_le _) (by omega), le_refl _⟩
  · exact ⟨(getD_mono s hs _ _ (Nat.zero_le _) (by omega)).trans h1, h2.trans (getD_mono s hs _ _ (by omega) (by omega))⟩

theorem interpolate_mono (s : List K) (hs : s.Pairwise (· ≤ ·)) (hne : s ≠ []) (v w : K) (hvw : v ≤ w) : interpolate s v ≤ interpolate s w := by
  rcases interpolate_cases s hs hne v with ⟨_, h⟩ | ⟨h0, hv, h⟩ | ⟨i, h0, h01, hif, h1, h2, hi, h3, h4, h5⟩
  · rw [h]; exact (interpolate_bounds s hs hne w).1
  · rcases interpolate_cases s hs hne w with ⟨hw, _⟩ | ⟨_, _, h'⟩ | ⟨j, _, h01', _⟩
    · exact absurd (h0.trans hvw) (not_le.mpr hw)
    · rw [h, h']
    · exact absurd (hv.trans hvw) (not_le.mpr h01')
  · rcases interpolate_cases s hs hne w with ⟨hw, _⟩ | ⟨_, _, h'⟩ | ⟨j, h0', h01', hjf, h1', h2', hj, h3', h4', h5'⟩
    · exact absurd (h0.trans hvw) (not_le.mpr hw)
    · rw [h']; exact h5.trans (getD_mono s hs _ _ (by omega) (by omega))
    · have hij : i ≤ j := by rw [hif, hjf]; exact Nat.floor_mono hvw
      rcases Nat.lt_or_ge i j with hlt | hge
      · exact h5.trans ((getD_mono s hs _ _ hlt (by omega)).trans h4')
      · have : i = j := le_antisymm hij hge
        subst this
        rw [h3, h3']
        have := getD_mono s hs i (i + 1) (Nat.le_succ _) hi
        have := mul_le_mul_of_nonneg_left (sub_le_sub_right hvw (i : K)) (sub_nonneg.mpr this)
        linarith

theorem interpolate_count_lt (s : List K) (hs : s.Pairwise (· ≤ ·)) (hne : s ≠ []) (v : K) (hv : -1 ≤ v) :
    ((s.countP fun x => decide (x < interpolate s v) : Nat) : K) ≤ v + 1 := by
  have hl : 1 ≤ s.length := List.length_pos_iff.mpr hne
  have key : ∀ (m : Nat) (r : K), (∀ i, m ≤ i → i < s.length → r ≤ s.getD i 0) → (s.countP fun x => decide (x < r)) ≤ m := by
    intro m r h
    have h1 : s.countP (fun x => decide (x < r)) = (s.take m).countP (fun x => decide (x < r)) + (s.drop m).countP (fun x => decide (x < r)) := by
      rw [← List.countP_append, List.take_append_drop]
    have h2 : (s.drop m).countP (fun x => decide (x < r)) = 0 := by
      rw [List.countP_eq_zero]
      intro x hx
      obtain ⟨i, hi⟩ := List.mem_iff_getElem?.mp hx
      rw [List.getElem?_drop] at hi
      obtain ⟨h3, h4⟩ := List.getElem?_eq_some_iff.mp hi
      have := h (m + i) (Nat.le_add_right _ _) h3
      rw [List.getD_eq_getElem?_getD, List.getElem?_eq_getElem h3, Option.getD_some, h4] at this
      simpa using this
    rw [h1, h2]
    exact (List.countP_le_length).trans (by simp)
  rcases interpolate_cases s hs hne v with ⟨_, h⟩ | ⟨_, hv2, h⟩ | ⟨i, _, _, _, h1, _, hi, _, _, h5⟩
  · have := key 0 (interpolate s v) fun i _ hi => by rw [h]; exact getD_mono s hs _ _ (Nat.zero_le _) hi
    rw [Nat.le_zero.mp this, Nat.cast_zero]; linarith
  · have h1 : (s.countP fun x => decide (x < interpolate s v)) ≤ s.length := List.countP_le_length
    have : ((s.countP fun x => decide (x < interpolate s v) : Nat) : K) ≤ (s.length : K) := by exact_mod_cast h1
    linarith
  · have := key (i + 1) (interpolate s v) fun j hj hjl => h5.trans (getD_mono s hs _ _ hj hjl)
    have : ((s.countP fun x => decide (x < interpolate s v) : Nat) : K) ≤ ((i + 1 : Nat) : K) := by exact_mod_cast this
    push_cast at this
    linarith

theorem interpolate_count_gt (s : List K) (hs : s.Pairwise (· ≤ ·)) (hne : s ≠ []) (v : K) (hv : v ≤ (s.length : K)) :
    ((s.countP fun x => decide (interpolate s v < x) : Nat) : K) ≤ (s.length : K) - v := by
  have hl : 1 ≤ s.length := List.length_pos_iff.mpr hne
  have key : ∀ (m : Nat) (r : K), m ≤ s.length → (∀ i, i < m → s.getD i 0 ≤ r) → (s.countP fun x => decide (r < x)) ≤ s.length - m := by
    intro m r hm h
    have h1 : s.countP (fun x => decide (r < x)) = (s.take m).countP (fun x => decide (r < x)) + (s.drop m).countP (fun x => decide (r < x)) := by
      rw [← List.countP_append, List.take_append_drop]
    have h2 : (s.take m).countP (fun x => decide (r < x)) = 0 := by
      rw [List.countP_eq_zero]
      intro x hx
      obtain ⟨i, hi⟩ := List.mem_iff_getElem?.mp hx
      rw [List.getElem?_take] at hi
      split at hi
      · rename_i him
        obtain ⟨h3, h4⟩ := List.getElem?_eq_some_iff.mp hi
        have := h i him
        rw [List.getD_eq_getElem?_getD, List.getElem?_eq_getElem h3, Option.getD_some, h4] at this
        simpa using this
      · cases hi
    rw [h1, h2, Nat.zero_add]
    exact (List.countP_le_length).trans (by simp)
  rcases interpolate_cases s hs hne v with ⟨h0, h⟩ | ⟨_, hv2, h⟩ | ⟨i, _, _, _, h1, h2, hi, _, h4, _⟩
  · have h1 : (s.countP fun x => decide (interpolate s v < x)) ≤ s.length := List.countP_le_length
    have : ((s.countP fun x => decide (interpolate s v < x) : Nat) : K) ≤ (s.length : K) := by exact_mod_cast h1
    linarith
  · have := key s.length (interpolate s v) (le_refl _) fun i hi => by rw [h]; exact getD_mono s hs _ _ (by omega) (by omega)
    rw [Nat.sub_self] at this
    rw [Nat.le_zero.mp this, Nat.cast_zero]; linarith
  · have := key (i + 1) (interpolate s v) (by omega) fun j hj => (getD_mono s hs _ _ (Nat.lt_succ_iff.mp hj) (by omega)).trans h4
    have h6 : (s.countP fun x => decide (interpolate s v < x)) + (i + 1) ≤ s.length := by omega
    have : ((s.countP fun x => decide (interpolate s v < x) : Nat) : K) + ((i : K) + 1) ≤ (s.length : K) := by exact_mod_cast h6
    linarith

/-- The median is the percentile with `q = 1/2`. -/
theorem npMedian_eq (l : List K) (hne : l ≠ []) : npMedian l = percentile (1 / 2) l := by
  have hlen : (sortedAsc id l).length = l.length := (sortedAsc_perm id l).length_eq
  have hl : 1 ≤ l.length := List.length_pos_iff.mpr hne
  have hv : (l.length : K) * (1 / 2) + (1 / 3 + 1 / 2 * (1 - 1 / 3 - 1 / 3)) - 1 = ((l.length : K) - 1) / 2 := by ring
  unfold npMedian percentile
  dsimp only
  rw [hv]
  generalize sortedAsc id l = s at hlen ⊢
  rw [← hlen] at hl ⊢
  unfold interpolate
  have h1 : (1 : K) ≤ (s.length : K) := by exact_mod_cast hl
  have hn0 : ¬ ((s.length : K) - 1) / 2 < 0 := by linarith
  rw [if_neg hn0]
  rcases Nat.even_or_odd' s.length with ⟨k, hk | hk⟩
  · have hk1 : 1 ≤ k := by omega
    have hk0 : (1 : K) ≤ (k : K) := by exact_mod_cast hk1
    have hc : (s.length : K) = 2 * (k : K) := by rw [hk]; push_cast; ring
    have hf : ⌊((s.length : K) - 1) / 2⌋₊ = k - 1 := by
      rw [Nat.floor_eq_iff (by linarith), Nat.cast_sub hk1, hc]
      constructor <;> push_cast <;> linarith
    have hn1 : ¬ s.length % 2 = 1 := by omega
    have hn2 : ¬ (s.length : K) - 1 ≤ ((s.length : K) - 1) / 2 := by rw [hc]; linarith
    rw [if_neg hn1, if_neg hn2, hf, Nat.cast_sub hk1, hc, show s.length / 2 = k by omega, show k - 1 + 1 = k by omega]
    push_cast
    ring
  · have hc : (s.length : K) = 2 * (k : K) + 1 := by rw [hk]; push_cast; ring
    have hf : ⌊((s.length : K) - 1) / 2⌋₊ = k := by
      rw [hc, show (2 * (k : K) + 1 - 1) / 2 = (k : K) by ring, Nat.floor_natCast]
    have hn1 : s.length % 2 = 1 := by omega
    rw [if_pos hn1, show s.length / 2 = k by omega]
    by_cases hz : k = 0
    · have hn2 : (s.length : K) - 1 ≤ ((s.length : K) - 1) / 2 := by rw [hc, hz]; norm_num
      rw [if_pos hn2, hk, hz]
    · have : (1 : K) ≤ (k : K) := by exact_mod_cast Nat.one_le_iff_ne_zero.mpr hz
      have hn2 : ¬ (s.length : K) - 1 ≤ ((s.length : K) - 1) / 2 := by rw [hc]; linarith
      rw [if_neg hn2, hf, hc]
      ring

theorem mean_bounds (l : List K) (hne : l ≠ []) (a b : K) (ha : ∀ x ∈ l, a ≤ x) (hb : ∀ x ∈ l, x ≤ b) :
    a ≤ l.sum / (l.length : K) ∧ l.sum / (l.length : K) ≤ b := by
  have hl : (0 : K) < (l.length : K) := by exact_mod_cast List.length_pos_iff.mpr hne
  rw [le_div_iff₀ hl, div_le_iff₀ hl]
  have h1 := List.card_nsmul_le_sum l a ha
  have h2 := List.sum_le_card_nsmul l b hb
  rw [nsmul_eq_mul] at h1 h2
  exact ⟨by linarith, by linarith⟩

/-! ### The dictionary of metrics -/

omit [Field K] [LinearOrder K] [IsStrictOrderedRing K] [FloorSemiring K] in
theorem logMany_other (m : Metrics K) (step : Nat) (kvs : List (String × Option K)) (key : String) (j : Nat) (h : j ≠ step) :
    m.logMany step kvs key j = m key j := by
  unfold Metrics.logMany
  induction kvs generalizing m with
  | nil => rfl
  | cons kv rest ih => rw [List.foldl_cons, ih]; unfold Metrics.log; rw [if_neg (fun h' => h h'.2)]

omit [Field K] [LinearOrder K] [IsStrictOrderedRing K] [FloorSemiring K] in
theorem logMany_notin (m : Metrics K) (step : Nat) (kvs : List (String × Option K)) (key : String) (j : Nat) (h : key ∉ kvs.map Prod.fst) :
    m.logMany step kvs key j = m key j := by
  unfold Metrics.logMany
  induction kvs generalizing m with
  | nil => rfl
  | cons kv rest ih =>
    simp only [List.map_cons, List.mem_cons, not_or] at h
    rw [List.foldl_cons, ih _ h.2]
    unfold Metrics.log
    rw [if_neg (fun h' => h.1 h'.1)]

omit [Field K] [LinearOrder K] [IsStrictOrderedRing K] [FloorSemiring K] in
theorem logMany_mem (m : Metrics K) (step : Nat) (kvs : List (String × Option K)) (hn : (kvs.map Prod.fst).Nodup) (key : String) (v : Option K)
    (h : (key, v) ∈ kvs) : m.logMany step kvs key step = some v := by
  induction kvs generalizing m with
  | nil => cases h
  | cons kv rest ih =>
    simp only [List.map_cons, List.nodup_cons] at hn
    rcases List.mem_cons.mp h with rfl | h
    · have : (m.log key step v).logMany step rest key step = _ := logMany_notin _ _ _ _ _ hn.1
      show (m.log key step v).logMany step rest key step = _
      rw [this]
      unfold Metrics.log
      rw [if_pos ⟨rfl, rfl⟩]
    · exact ih _ hn.2 h

theorem logIteration_ok (L : Learner K d M) (P : MixParams K) (filt : SubFilter K d M) (X : List (Point K d)) (y : List K) (step : Nat)
    (pool : List (Rule K d M)) (comp : CompState K) (m m' : Metrics K) (h : logIteration L P filt X y step pool comp m = .ok m') :
    ∃ a b c, poolMetrics pool = .ok a ∧ populationMetrics comp = .ok b ∧ elitistMetrics L P filt X y pool comp = .ok c ∧ m' = m.logMany step (a ++ b ++ c) := by
  unfold logIteration at h
  split at h
  · cases h
  · rename_i a ha
    split at h
    · cases h
    · rename_i b hb
      split at h
      · cases h
      · rename_i c hc
        exact ⟨a, b, c, ha, hb, hc, (Except.ok.inj h).symm⟩

theorem logFrom_spec (L : Learner K d M) (P : MixParams K) (filt : SubFilter K d M) (X : List (Point K d)) (y : List K) (k : Nat)
    (states : List (List (Rule K d M) × CompState K)) (m m' : Metrics K) (h : logFrom L P filt X y k states m = .ok m') :
    (∀ key j, j < k ∨ k + states.length ≤ j → m' key j = m key j) ∧
    ∀ i pool comp, states[i]? = some (pool, comp) → ∃ a b c, poolMetrics pool = .ok a ∧ populationMetrics comp = .ok b ∧
      elitistMetrics L P filt X y pool comp = .ok c ∧ ∃ m0 : Metrics K, (∀ key, m0 key (k + i) = m key (k + i)) ∧
      ∀ key, m' key (k + i) = m0.logMany (k + i) (a ++ b ++ c) key (k + i) := by
  induction states generalizing k m with
  | nil =>
    unfold logFrom at h
    cases h
    exact ⟨fun _ _ _ => rfl, fun i pool comp hi => by simp at hi⟩
  | cons st rest ih =>
    obtain ⟨pool0, comp0⟩ := st
    unfold logFrom at h
    split at h
    · cases h
    · rename_i m1 h1
      obtain ⟨h2, h3⟩ := ih _ _ h
      obtain ⟨a, b, c, ha, hb, hc, rfl⟩ := logIteration_ok _ _ _ _ _ _ _ _ _ _ h1
      refine ⟨?_, ?_⟩
      · intro key j hj
        rw [List.length_cons] at hj
        rw [h2 key j (by omega), logMany_other _ _ _ _ _ (by omega)]
      · intro i pool comp hi
        cases i with
        | zero =>
          simp only [List.getElem?_cons_zero, Option.some.injEq, Prod.mk.injEq] at hi
          obtain ⟨rfl, rfl⟩ := hi
          refine ⟨a, b, c, ha, hb, hc, m, fun _ => rfl, fun key => ?_⟩
          rw [Nat.add_zero, h2 key k (by omega)]
        | succ i =>
          rw [List.getElem?_cons_succ] at hi
          obtain ⟨a', b', c', ha', hb', hc', m0, h4, h5⟩ := h3 i pool comp hi
          have he : k + (i + 1) = k + 1 + i := by omega
          rw [he]
          refine ⟨a', b', c', ha', hb', hc', m0, fun key => ?_, h5⟩
          rw [h4 key, logMany_other _ _ _ _ _ (by omega)]

end Suprb
