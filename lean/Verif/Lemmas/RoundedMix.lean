import Verif.Model.RoundedMix
import Verif.Lemmas.Solution
import Mathlib.Data.List.Perm.Basic
import Mathlib.Algebra.BigOperators.Group.List.Basic
import Mathlib.Algebra.Order.BigOperators.Group.List
import Mathlib.Tactic.Ring
import Mathlib.Tactic.FieldSimp
import Mathlib.Tactic.Positivity
import Mathlib.Tactic.Linarith

/-! Helper lemmas: accumulated rounding errors. -/

set_option autoImplicit false
set_option linter.unusedSectionVars false

namespace Suprb

open _root_.Spec (Pairs Point)

variable {K : Type} [Field K] [LinearOrder K] [IsStrictOrderedRing K] {d : Nat} {M : Type}

/-- The relative error of one rounding is at most `u`. -/
def Rounding.Accurate (R : Rounding K) (u : K) : Prop := ∀ x, |R.rnd x - x| ≤ u * |x|

/-- `a'` is `a` after at most `k` roundings with relative error at most `u`. -/
def Near (u : K) (k : Nat) (a a' : K) : Prop := ∃ θ, a' = θ * a ∧ (1 - u) ^ k ≤ θ ∧ θ ≤ (1 + u) ^ k

section

variable {u : K}

theorem Near.refl (a : K) : Near u 0 a a := ⟨1, by ring, by simp, by simp⟩

theorem Near.mono (hu : 0 ≤ u) (hu1 : u < 1) {k k' : Nat} (hk : k ≤ k') {a a' : K} (h : Near u k a a') : Near u k' a a' := by
  obtain ⟨θ, h1, h2, h3⟩ := h
  exact ⟨θ, h1, (pow_le_pow_of_le_one (by linarith) (by linarith) hk).trans h2,
    h3.trans (pow_le_pow_right₀ (by linarith) hk)⟩

theorem Near.mul (hu : 0 ≤ u) (hu1 : u < 1) {k j : Nat} {a a' b b' : K} (h : Near u k a a') (h' : Near u j b b') :
    Near u (k + j) (a * b) (a' * b') := by
  obtain ⟨θ, h1, h2, h3⟩ := h
  obtain ⟨η, g1, g2, g3⟩ := h'
  have p1 : (0 : K) ≤ (1 - u) ^ k := pow_nonneg (by linarith) k
  have p2 : (0 : K) ≤ (1 - u) ^ j := pow_nonneg (by linarith) j
  refine ⟨θ * η, by rw [h1, g1]; ring, ?_, ?_⟩
  · rw [pow_add]; exact mul_le_mul h2 g2 p2 (p1.trans h2)
  · rw [pow_add]; exact mul_le_mul h3 g3 (p2.trans g2) (pow_nonneg (by linarith) k)

theorem Near.rnd_one {R : Rounding K} (hR : R.Accurate u) (x : K) : Near u 1 x (R.rnd x) := by
  by_cases hx : x = 0
  · subst hx
    have := hR 0
    exact ⟨1, by rw [R.zero]; ring, by
      have h0 : 0 ≤ u := by
        have h1 := hR 1
        rw [abs_one, mul_one] at h1
        exact (abs_nonneg _).trans h1
      simpa using h0, by
      have h0 : 0 ≤ u := by
        have h1 := hR 1
        rw [abs_one, mul_one] at h1
        exact (abs_nonneg _).trans h1
      simpa using h0⟩
  · have h := hR x
    have hp : 0 < |x| := abs_pos.2 hx
    have e : |R.rnd x / x - 1| ≤ u := by
      have : R.rnd x / x - 1 = (R.rnd x - x) / x := by rw [sub_div, div_self hx]
      rw [this, abs_div, div_le_iff₀ hp]
      exact h
    rw [abs_le] at e
    exact ⟨R.rnd x / x, by rw [div_mul_cancel₀ _ hx], by rw [pow_one]; linarith, by rw [pow_one]; linarith⟩

theorem Near.rnd (hu : 0 ≤ u) (hu1 : u < 1) {R : Rounding K} (hR : R.Accurate u) {k : Nat} {a a' : K} (h : Near u k a a') :
    Near u (k + 1) a (R.rnd a') := by
  obtain ⟨θ, h1, h2, h3⟩ := h
  obtain ⟨η, g1, g2, g3⟩ := Near.rnd_one hR a'
  have p1 : (0 : K) ≤ (1 - u) ^ k := pow_nonneg (by linarith) k
  have p2 : (0 : K) ≤ (1 - u) ^ 1 := pow_nonneg (by linarith) 1
  refine ⟨θ * η, by rw [g1, h1]; ring, ?_, ?_⟩
  · rw [pow_add]; exact mul_le_mul h2 g2 p2 (p1.trans h2)
  · rw [pow_add]; exact mul_le_mul h3 g3 (p2.trans g2) (pow_nonneg (by linarith) k)

theorem near_pos_iff {k : Nat} {a a' : K} (ha : 0 < a) :
    Near u k a a' ↔ (1 - u) ^ k * a ≤ a' ∧ a' ≤ (1 + u) ^ k * a := by
  constructor
  · rintro ⟨θ, rfl, h2, h3⟩
    exact ⟨mul_le_mul_of_nonneg_right h2 ha.le, mul_le_mul_of_nonneg_right h3 ha.le⟩
  · rintro ⟨h1, h2⟩
    exact ⟨a' / a, by rw [div_mul_cancel₀ _ ha.ne'], (le_div_iff₀ ha).2 h1, (div_le_iff₀ ha).2 h2⟩

theorem Near.nonneg (hu1 : u < 1) {k : Nat} {a a' : K} (ha : 0 ≤ a) (h : Near u k a a') : 0 ≤ a' := by
  obtain ⟨θ, rfl, h2, _⟩ := h
  exact mul_nonneg ((pow_nonneg (by linarith) k).trans h2) ha

theorem Near.nonpos (hu1 : u < 1) {k : Nat} {a a' : K} (ha : a ≤ 0) (h : Near u k a a') : a' ≤ 0 := by
  obtain ⟨θ, rfl, h2, _⟩ := h
  exact mul_nonpos_of_nonneg_of_nonpos ((pow_nonneg (by linarith) k).trans h2) ha

theorem Near.pos (hu1 : u < 1) {k : Nat} {a a' : K} (ha : 0 < a) (h : Near u k a a') : 0 < a' := by
  obtain ⟨θ, rfl, h2, _⟩ := h
  exact mul_pos ((pow_pos (by linarith) k).trans_le h2) ha

theorem Near.max (hu : 0 ≤ u) (hu1 : u < 1) {k : Nat} {a a' b b' : K} (ha : 0 < a) (h : Near u k a a') (h' : Near u k b b') :
    Near u k (max a b) (max a' b') := by
  by_cases hb : 0 < b
  · rw [near_pos_iff ha] at h
    rw [near_pos_iff hb] at h'
    rw [near_pos_iff (lt_max_of_lt_left ha)]
    have p1 : (0 : K) ≤ (1 - u) ^ k := pow_nonneg (by linarith) k
    have p2 : (0 : K) ≤ (1 + u) ^ k := pow_nonneg (by linarith) k
    rw [mul_max_of_nonneg _ _ p1, mul_max_of_nonneg _ _ p2]
    exact ⟨max_le_max h.1 h'.1, max_le_max h.2 h'.2⟩
  · have hb := not_lt.1 hb
    rw [max_eq_left (hb.trans ha.le), max_eq_left ((h'.nonpos hu1 hb).trans (h.nonneg hu1 ha.le))]
    exact h

theorem Near.min (hu : 0 ≤ u) (hu1 : u < 1) {k : Nat} {a a' b b' : K} (ha : 0 < a) (hb : 0 < b) (h : Near u k a a')
    (h' : Near u k b b') : Near u k (min a b) (min a' b') := by
  rw [near_pos_iff ha] at h
  rw [near_pos_iff hb] at h'
  rw [near_pos_iff (lt_min ha hb)]
  have p1 : (0 : K) ≤ (1 - u) ^ k := pow_nonneg (by linarith) k
  have p2 : (0 : K) ≤ (1 + u) ^ k := pow_nonneg (by linarith) k
  rw [mul_min_of_nonneg _ _ p1, mul_min_of_nonneg _ _ p2]
  exact ⟨min_le_min h.1 h'.1, min_le_min h.2 h'.2⟩

/-! ### Sums -/

theorem forall₂_cut {α β : Type} {r : α → β → Prop} {l : List α} {m m' : List β} (h : List.Forall₂ r l (m ++ m')) :
    ∃ l1 l2, l = l1 ++ l2 ∧ List.Forall₂ r l1 m ∧ List.Forall₂ r l2 m' := by
  induction m generalizing l with
  | nil => exact ⟨[], l, rfl, .nil, h⟩
  | cons b bs ih =>
    cases h with
    | cons h1 h2 =>
      obtain ⟨l1, l2, rfl, g1, g2⟩ := ih h2
      exact ⟨_ :: l1, l2, rfl, .cons h1 g1, g2⟩

theorem forall₂_along_perm {α β : Type} {r : α → β → Prop} {l : List α} {m m' : List β} (h : List.Forall₂ r l m) (hp : m.Perm m') :
    ∃ l', l.Perm l' ∧ List.Forall₂ r l' m' := by
  have : Relation.Comp (List.Forall₂ r) List.Perm l m' := ⟨m, h, hp⟩
  rw [List.forall₂_comp_perm_eq_perm_comp_forall₂] at this
  exact this

theorem sum_map_mul_left' (c : K) (l : List K) : (l.map fun x => c * x).sum = c * l.sum := by
  induction l with
  | nil => simp
  | cons a as ih => simp only [List.map_cons, List.sum_cons, ih, mul_add]

/-- Every way of adding `n` numbers rounds each of them at most `n - 1` times. -/
theorem sums_near (hu : 0 ≤ u) (hu1 : u < 1) {R : Rounding K} (hR : R.Accurate u) {k : Nat} {l' : List K} {s : K} (hs : R.Sums l' s)
    {l : List K} (h : List.Forall₂ (Near u k) l l') :
    ∃ l'', List.Forall₂ (Near u (k + (l.length - 1))) l l'' ∧ s = l''.sum := by
  induction hs generalizing l with
  | nil => cases h; exact ⟨[], .nil, rfl⟩
  | one x =>
    cases h with
    | cons h1 h2 => cases h2; exact ⟨[x], .cons h1 .nil, by simp⟩
  | @add m m' s s' hm hm' h1 h2 ih1 ih2 =>
    obtain ⟨l1, l2, rfl, g1, g2⟩ := forall₂_cut h
    obtain ⟨q1, f1, e1⟩ := ih1 g1
    obtain ⟨q2, f2, e2⟩ := ih2 g2
    obtain ⟨η, e3, b1, b2⟩ := Near.rnd_one hR (s + s')
    have n1 : 0 < l1.length := by rw [g1.length_eq]; exact List.length_pos_iff.2 hm
    have n2 : 0 < l2.length := by rw [g2.length_eq]; exact List.length_pos_iff.2 hm'
    have step : ∀ (j : Nat) (l q : List K), List.Forall₂ (Near u j) l q → j + 1 ≤ k + ((l1 ++ l2).length - 1) →
        List.Forall₂ (Near u (k + ((l1 ++ l2).length - 1))) l (q.map fun x => η * x) := by
      intro j l q hf hj
      rw [List.forall₂_map_right_iff]
      refine hf.imp fun a b hab => ?_
      obtain ⟨θ, rfl, c1, c2⟩ := hab
      refine Near.mono hu hu1 hj ⟨θ * η, by ring, ?_, ?_⟩
      · rw [pow_add]
        exact mul_le_mul c1 b1 (pow_nonneg (by linarith) 1) ((pow_nonneg (by linarith) j).trans c1)
      · rw [pow_add]
        exact mul_le_mul c2 b2 ((pow_nonneg (by linarith) 1).trans b1) (pow_nonneg (by linarith) j)
    refine ⟨(q1.map fun x => η * x) ++ q2.map fun x => η * x, ?_, ?_⟩
    · refine List.rel_append (step _ _ _ f1 ?_) (step _ _ _ f2 ?_)
      · rw [List.length_append]; omega
      · rw [List.length_append]; omega
    · rw [e3, List.sum_append, sum_map_mul_left', sum_map_mul_left', e1, e2]; ring
  | @perm m m' s hp h1 ih =>
    obtain ⟨l0, p0, g0⟩ := forall₂_along_perm h hp.symm
    obtain ⟨q, f, e⟩ := ih g0
    obtain ⟨q', p1, f1⟩ := forall₂_along_perm f.flip p0.symm
    refine ⟨q', ?_, ?_⟩
    · rw [← p0.length_eq] at f1
      exact f1.flip
    · rw [e, p1.sum_eq]

/-- Sums of non-negative numbers. -/
theorem near_sum_nonneg {k : Nat} {l l'' : List K} (hpos : ∀ a ∈ l, 0 ≤ a) (h : List.Forall₂ (Near u k) l l'') :
    (1 - u) ^ k * l.sum ≤ l''.sum ∧ l''.sum ≤ (1 + u) ^ k * l.sum := by
  induction h with
  | nil => simp
  | cons h1 h2 ih =>
    obtain ⟨i1, i2⟩ := ih fun a ha => hpos a (List.mem_cons_of_mem _ ha)
    have ha := hpos _ (List.mem_cons_self ..)
    obtain ⟨θ, rfl, c1, c2⟩ := h1
    simp only [List.sum_cons, mul_add]
    exact ⟨add_le_add (mul_le_mul_of_nonneg_right c1 ha) i1, add_le_add (mul_le_mul_of_nonneg_right c2 ha) i2⟩

/-- Sums of arbitrary numbers. -/
theorem near_sum_abs {k : Nat} {l l'' : List K} (h : List.Forall₂ (Near u k) l l'') (c δ : K) (hc : 0 ≤ c)
    (h1 : 1 - δ ≤ c * (1 - u) ^ k) (h2 : c * (1 + u) ^ k ≤ 1 + δ) :
    |c * l''.sum - l.sum| ≤ δ * (l.map fun a => |a|).sum := by
  induction h with
  | nil => simp
  | @cons a a' as as' g1 g2 ih =>
    obtain ⟨θ, rfl, c1, c2⟩ := g1
    simp only [List.sum_cons, List.map_cons, mul_add]
    have e : c * (θ * a) + c * as'.sum - (a + as.sum) = (c * θ - 1) * a + (c * as'.sum - as.sum) := by ring
    rw [e]
    refine (abs_add_le _ _).trans (add_le_add ?_ ih)
    rw [abs_mul]
    refine mul_le_mul_of_nonneg_right ?_ (abs_nonneg a)
    rw [abs_le]
    have := mul_le_mul_of_nonneg_left c1 hc
    have := mul_le_mul_of_nonneg_left c2 hc
    constructor <;> linarith

theorem near_zero_sum {k : Nat} {l l'' : List K} (hz : ∀ a ∈ l, a = 0) (h : List.Forall₂ (Near u k) l l'') : l''.sum = 0 := by
  induction h with
  | nil => simp
  | cons h1 h2 ih =>
    obtain ⟨θ, rfl, _⟩ := h1
    rw [List.sum_cons, ih fun a ha => hz a (List.mem_cons_of_mem _ ha), hz _ (List.mem_cons_self ..)]
    ring

end

end Suprb
