import Verif.Lemmas.Matching
import Verif.Model.Operators
import Mathlib.Tactic.FieldSimp
import Mathlib.Tactic.Ring
import Mathlib.Tactic.Positivity
import Mathlib.Algebra.Order.Archimedean.Basic
import Mathlib.Data.Fintype.Order

/-!
# C153: every condition is within reach of the rule mutations
-/

set_option autoImplicit false
set_option linter.unusedSectionVars false

namespace Suprb

open _root_.Spec (Pairs Point InBox InBounds Ordered Inside)

variable {K : Type} [Field K] [LinearOrder K] [IsStrictOrderedRing K] {d : Nat}

namespace Spec

/-- The box lies in the feature bounds and is at least `r` wide in every dimension. -/
def Roomy (fb : Pairs K d) (r : K) (lo hi : Point K d) : Prop :=
  ∀ i, (fb i).1 ≤ lo i ∧ lo i + r ≤ hi i ∧ hi i ≤ (fb i).2

/-- The first box is a part of the second one. -/
def PartOf (lo hi lo' hi' : Point K d) : Prop := ∀ i, lo' i ≤ lo i ∧ hi i ≤ hi' i

/-- The rule is matched by exactly the samples of the box (`matched` decides whether a rule matches a sample). -/
def HasBox {R : Type} (matched : R → Point K d → Bool) (b : R) (lo hi : Point K d) : Prop :=
  ∀ x, matched b x = true ↔ InBox lo hi x

/-- `b` can be turned into `b'` by some number of successive steps (`step b b'`: one step, for some draws). -/
inductive Turns {R : Type} (step : R → R → Prop) : R → R → Prop
  | none (b : R) : Turns step b b
  | more (b b1 b2 : R) (h : Turns step b b1) (s : step b1 b2) : Turns step b b2

end Spec

open Suprb.Spec (Roomy PartOf HasBox Turns)

/-- One mutation followed by the constraints, for some numbers which the mutation can draw. -/
def MutStep (m : Mutation) (k : Kind) (sigma : K × K) (r : K) (fb b b' : Pairs K d) : Prop :=
  ∃ z, m.DrawOk k sigma z ∧ childBounds m k r fb z b = .ok b'

/-- The mutation only lets rules grow. -/
def Mutation.grows : Mutation → Bool
  | .halfnormIncrease => true
  | .uniformIncrease => true
  | _ => false

/-! ### Boxes determine the numbers of a rule -/

theorem box_unique {l1 h1 l2 h2 : Point K d} (h : ∀ x, InBox l1 h1 x ↔ InBox l2 h2 x) (h2' : ∀ i, l2 i ≤ h2 i) :
    l1 = l2 ∧ h1 = h2 := by
  have a := (h l2).2 fun i => ⟨le_rfl, h2' i⟩
  have b := (h h2).2 fun i => ⟨h2' i, le_rfl⟩
  have ord : ∀ i, l1 i ≤ h1 i := fun i => le_trans (a i).1 (a i).2
  have a' := (h l1).1 fun i => ⟨le_rfl, ord i⟩
  have b' := (h h1).1 fun i => ⟨ord i, le_rfl⟩
  exact ⟨funext fun i => le_antisymm (a i).1 (a' i).1, funext fun i => le_antisymm (b' i).2 (b i).2⟩

/-- The numbers that describe the interval `[lo, hi]`; `p` tells whether an unordered rule has the larger number first. -/
def describe (k : Kind) (p : Bool) (lo hi : K) : K × K :=
  match k with
  | .ordered => (lo, hi)
  | .unordered => if p then (hi, lo) else (lo, hi)
  | .centerSpread => ((lo + hi) / 2, (hi - lo) / 2)
  | .minPercentage => (lo, (hi - lo) / (1 - lo))

/-- Centre/spread and minimum/percentage rules are made for features between -1 and 1. -/
def FeaturesFit (k : Kind) (fb : Pairs K d) : Prop :=
  k = .ordered ∨ k = .unordered ∨ ∀ i, fb i = (-1, 1)

/-- The feature bounds may be arbitrary or are `[-1, 1]`. -/
theorem FeaturesFit.unit {k : Kind} {fb : Pairs K d} (h : FeaturesFit k fb) (h1 : k ≠ .ordered)
    (h2 : k ≠ .unordered) (i : Fin d) : fb i = (-1, 1) := by
  rcases h with h | h | h
  · exact absurd h h1
  · exact absurd h h2
  · exact h i

theorem describe_box {k : Kind} {fb : Pairs K d} (hfb : FeaturesFit k fb) {r : K} (hr : 0 < r) (p : Fin d → Bool)
    {lo hi : Point K d} (h : Roomy fb r lo hi) :
    HasBox k.call (fun i => describe k (p i) (lo i) (hi i)) lo hi := by
  intro x
  cases k with
  | ordered => exact OrderedBound.call_iff _ _
  | unordered =>
    refine (UnorderedBound.call_iff _ _).trans (forall_congr' fun i => ?_)
    have hle : lo i ≤ hi i := by linarith [(h i).2.1]
    dsimp only [describe]
    cases p i
    · rw [if_neg (by simp), min_eq_left hle, max_eq_right hle]
    · rw [if_pos rfl, min_eq_right hle, max_eq_left hle]
  | centerSpread =>
    refine (CenterSpread.call_iff _ _).trans (forall_congr' fun i => ?_)
    dsimp only [describe]
    rw [show (lo i + hi i) / 2 - (hi i - lo i) / 2 = lo i by ring,
      show (lo i + hi i) / 2 + (hi i - lo i) / 2 = hi i by ring]
  | minPercentage =>
    refine (MinPercentage.call_iff _ _).trans (forall_congr' fun i => ?_)
    dsimp only [describe]
    have hi1 := (h i).2.2
    rw [hfb.unit (by simp) (by simp) i] at hi1
    have : 1 - lo i ≠ 0 := by have := (h i).2.1; linarith
    rw [div_mul_cancel₀ _ this, add_sub_cancel]

theorem described {k : Kind} {fb : Pairs K d} (hfb : FeaturesFit k fb) {r : K} (hr : 0 < r) {b : Pairs K d}
    {lo hi : Point K d} (h : Roomy fb r lo hi) (hb : HasBox k.call b lo hi) :
    ∃ p : Fin d → Bool, b = fun i => describe k (p i) (lo i) (hi i) := by
  have hle : ∀ i, lo i ≤ hi i := fun i => by linarith [(h i).2.1]
  cases k with
  | ordered =>
    have := box_unique (l1 := fun i => (b i).1) (h1 := fun i => (b i).2)
      (fun x => (OrderedBound.call_iff b x).symm.trans (hb x)) hle
    exact ⟨fun _ => false, funext fun i => Prod.ext (congrFun this.1 i) (congrFun this.2 i)⟩
  | unordered =>
    have := box_unique (l1 := fun i => min (b i).1 (b i).2) (h1 := fun i => max (b i).1 (b i).2)
      (fun x => (UnorderedBound.call_iff b x).symm.trans (hb x)) hle
    refine ⟨fun i => decide ((b i).2 < (b i).1), funext fun i => ?_⟩
    have e1 : min (b i).1 (b i).2 = lo i := congrFun this.1 i
    have e2 : max (b i).1 (b i).2 = hi i := congrFun this.2 i
    dsimp only [describe]
    by_cases hc : (b i).2 < (b i).1
    · rw [if_pos (by simpa using hc), ← e1, ← e2, min_eq_right hc.le, max_eq_left hc.le]
    · rw [if_neg (by simpa using hc), ← e1, ← e2, min_eq_left (not_lt.1 hc), max_eq_right (not_lt.1 hc)]
  | centerSpread =>
    have := box_unique (l1 := fun i => (b i).1 - (b i).2) (h1 := fun i => (b i).1 + (b i).2)
      (fun x => (CenterSpread.call_iff b x).symm.trans (hb x)) hle
    refine ⟨fun _ => false, funext fun i => ?_⟩
    have e1 : (b i).1 - (b i).2 = lo i := congrFun this.1 i
    have e2 : (b i).1 + (b i).2 = hi i := congrFun this.2 i
    dsimp only [describe]
    refine Prod.ext ?_ ?_ <;> dsimp only <;> linarith
  | minPercentage =>
    have := box_unique (l1 := fun i => (b i).1) (h1 := fun i => (b i).1 + (b i).2 * (1 - (b i).1))
      (fun x => (MinPercentage.call_iff b x).symm.trans (hb x)) hle
    refine ⟨fun _ => false, funext fun i => ?_⟩
    have e1 : (b i).1 = lo i := congrFun this.1 i
    have e2 : (b i).1 + (b i).2 * (1 - (b i).1) = hi i := congrFun this.2 i
    have hi1 := (h i).2.2
    rw [hfb.unit (by simp) (by simp) i] at hi1
    have hne : 1 - lo i ≠ 0 := by have := (h i).2.1; linarith
    dsimp only [describe]
    refine Prod.ext e1 ?_
    dsimp only
    rw [eq_div_iff hne]
    rw [e1] at e2
    linarith

/-! ### Rows which the constraints leave alone -/

/-- The constraints leave such a row alone (`p`: which number of an unordered row is the larger one). -/
def SoundRow (k : Kind) (r : K) (f : K × K) (p : Bool) (q : K × K) : Prop :=
  match k with
  | .ordered => f.1 ≤ q.1 ∧ q.1 + r ≤ q.2 ∧ q.2 ≤ f.2
  | .unordered => if p then q.2 + r ≤ q.1 else q.1 + r ≤ q.2
  | .centerSpread => -1 ≤ q.1 ∧ q.1 ≤ 1 ∧ 0 ≤ q.2 ∧ q.2 ≤ 2 ∧ r ≤ 2 * q.2 ∧ r ≤ q.1 + q.2 + 1 ∧
      r ≤ 1 - (q.1 - q.2) ∧ r ≤ 2
  | .minPercentage => -1 ≤ q.1 ∧ q.1 ≤ 1 ∧ 0 ≤ q.2 ∧ q.2 ≤ 1 ∧ r ≤ 2 * q.2

theorem describe_sound {k : Kind} {fb : Pairs K d} (hfb : FeaturesFit k fb) {r : K} (hr : 0 < r) (p : Fin d → Bool)
    {lo hi : Point K d} (h : Roomy fb r lo hi) (i : Fin d) :
    SoundRow k r (fb i) (p i) (describe k (p i) (lo i) (hi i)) := by
  have hi' := h i
  cases k with
  | ordered => exact hi'
  | unordered =>
    dsimp only [describe, SoundRow]
    cases p i
    · rw [if_neg (by simp), if_neg (by simp)]; exact hi'.2.1
    · rw [if_pos rfl, if_pos rfl]; exact hi'.2.1
  | centerSpread =>
    rw [hfb.unit (by simp) (by simp) i] at hi'
    obtain ⟨h1, h2, h3⟩ := hi'
    dsimp only [describe, SoundRow] at *
    refine ⟨?_, ?_, ?_, ?_, ?_, ?_, ?_, ?_⟩ <;> linarith
  | minPercentage =>
    rw [hfb.unit (by simp) (by simp) i] at hi'
    obtain ⟨h1, h2, h3⟩ := hi'
    dsimp only [describe, SoundRow] at *
    have hpos : 0 < 1 - lo i := by linarith
    refine ⟨h1, by linarith, div_nonneg (by linarith) hpos.le, (div_le_one hpos).2 (by linarith), ?_⟩
    rw [← mul_div_assoc, le_div_iff₀ hpos]
    nlinarith

theorem SoundRow.between {k : Kind} {r : K} {f : K × K} {p : Bool} {q t : K × K} (hq : SoundRow k r f p q)
    (ht : SoundRow k r f p t) {c : K} (h0 : 0 ≤ c) (h1 : c ≤ 1) :
    SoundRow k r f p (q.1 + c * (t.1 - q.1), q.2 + c * (t.2 - q.2)) := by
  have mix : ∀ {a x y : K}, a ≤ x → a ≤ y → a ≤ x + c * (y - x) := by
    intro a x y hx hy
    nlinarith [mul_nonneg h0 (sub_nonneg.2 hy), mul_nonneg (sub_nonneg.2 h1) (sub_nonneg.2 hx)]
  have mix' : ∀ {a x y : K}, x ≤ a → y ≤ a → x + c * (y - x) ≤ a := by
    intro a x y hx hy
    nlinarith [mul_nonneg h0 (sub_nonneg.2 hy), mul_nonneg (sub_nonneg.2 h1) (sub_nonneg.2 hx)]
  cases k with
  | ordered =>
    dsimp only [SoundRow] at *
    refine ⟨mix hq.1 ht.1, ?_, mix' hq.2.2 ht.2.2⟩
    have := mix (a := r) (x := q.2 - q.1) (y := t.2 - t.1) (by linarith [hq.2.1]) (by linarith [ht.2.1])
    linarith
  | unordered =>
    dsimp only [SoundRow] at *
    cases p
    · rw [if_neg (by simp)] at *
      have := mix (a := r) (x := q.2 - q.1) (y := t.2 - t.1) (by linarith) (by linarith)
      linarith
    · rw [if_pos rfl] at *
      have := mix (a := r) (x := q.1 - q.2) (y := t.1 - t.2) (by linarith) (by linarith)
      linarith
  | centerSpread =>
    dsimp only [SoundRow] at *
    obtain ⟨a1, a2, a3, a4, a5, a6, a7, a8⟩ := hq
    obtain ⟨b1, b2, b3, b4, b5, b6, b7, _⟩ := ht
    refine ⟨mix a1 b1, mix' a2 b2, mix a3 b3, mix' a4 b4, ?_, ?_, ?_, a8⟩
    · have := mix a5 b5; linarith
    · have := mix a6 b6; linarith
    · have := mix a7 b7; linarith
  | minPercentage =>
    dsimp only [SoundRow] at *
    obtain ⟨a1, a2, a3, a4, a5⟩ := hq
    obtain ⟨b1, b2, b3, b4, b5⟩ := ht
    refine ⟨mix a1 b1, mix' a2 b2, mix a3 b3, mix' a4 b4, ?_⟩
    have := mix a5 b5; linarith

theorem constrain_sound {k : Kind} {r : K} (hr : 0 < r) {fb : Pairs K d} {p : Fin d → Bool} {b : Pairs K d}
    (h : ∀ i, SoundRow k r (fb i) (p i) (b i)) : constrain k r fb b = b := by
  cases k with
  | ordered =>
    have e : OrderedBound.minRange r b = b := by
      unfold OrderedBound.minRange
      rw [if_pos hr]
      funext i
      rw [if_neg (not_lt.2 (by have := (h i).2.1; linarith))]
    dsimp only [constrain, Kind.clip, Kind.minRange]
    rw [e]
    funext i
    obtain ⟨h1, h2, h3⟩ := h i
    exact Prod.ext (npClip_of_mem h1 (by linarith)) (npClip_of_mem (by linarith) h3)
  | unordered =>
    have e : UnorderedBound.invalid r b = [] := by
      unfold UnorderedBound.invalid
      rw [List.filter_eq_nil_iff]
      intro i _ hc
      have hc := of_decide_eq_true hc
      have := h i
      dsimp only [SoundRow] at this
      split at this <;> linarith [hc.1, hc.2]
    dsimp only [constrain, Kind.clip, Kind.minRange, UnorderedBound.clip]
    unfold UnorderedBound.minRange
    have eL : UnorderedBound.rowsL r b = [] := by unfold UnorderedBound.rowsL; rw [e]; rfl
    have eR : UnorderedBound.rowsR r b = [] := by unfold UnorderedBound.rowsR; rw [e]; rfl
    rw [if_pos hr]
    funext i
    dsimp only
    rw [eL, eR, if_neg List.not_mem_nil, if_neg List.not_mem_nil]
  | centerSpread =>
    have e : CenterSpread.minRange r b = b := by
      unfold CenterSpread.minRange
      rw [if_pos hr]
      funext i
      obtain ⟨h1, h2, h3, h4, h5, h6, h7, h8⟩ := h i
      rw [if_neg (not_lt.2 ?_)]
      unfold CenterSpread.widths npClip
      rcases le_total ((b i).1 + (b i).2) 1 with c1 | c1 <;> rcases le_total ((b i).1 - (b i).2) (-1) with c2 | c2
      · rw [max_eq_left (by linarith), min_eq_left c1, max_eq_right c2, min_eq_left (by linarith)]; linarith
      · rw [max_eq_left (by linarith), min_eq_left c1, max_eq_left c2, min_eq_left (by linarith)]; linarith
      · rw [max_eq_left (by linarith), min_eq_right c1, max_eq_right c2, min_eq_left (by linarith)]; linarith
      · rw [max_eq_left (by linarith), min_eq_right c1, max_eq_left c2, min_eq_left (by linarith)]; linarith
    dsimp only [constrain, Kind.clip, Kind.minRange]
    rw [e]
    funext i
    obtain ⟨h1, h2, h3, h4, _⟩ := h i
    exact Prod.ext (npClip_of_mem h1 h2) (npClip_of_mem h3 h4)
  | minPercentage =>
    have e : MinPercentage.minRange r b = b := by
      unfold MinPercentage.minRange
      rw [if_pos hr]
      funext i
      obtain ⟨h1, h2, h3, h4, h5⟩ := h i
      rw [if_neg (not_lt.2 (by unfold MinPercentage.widths; linarith))]
    dsimp only [constrain, Kind.clip, Kind.minRange]
    rw [e]
    funext i
    obtain ⟨h1, h2, h3, h4, _⟩ := h i
    exact Prod.ext (npClip_of_mem h1 h2) (npClip_of_mem h3 h4)

/-! ### Small steps -/

/-- The mutation shifts the two numbers of a row independently of each other (all but `Halfnorm`) and is implemented
for the matching type. -/
def Shifts (m : Mutation) (k : Kind) : Prop := m ≠ .halfnorm ∧ ¬ (m.grows = true ∧ k = .unordered)

/-- The shifts which a growing mutation can make. -/
def Outward (k : Kind) (e : K × K) : Prop :=
  match k with
  | .centerSpread => 0 ≤ e.2
  | _ => e.1 ≤ 0 ∧ 0 ≤ e.2

theorem small_step {m : Mutation} {k : Kind} (hm : Shifts m k) {sigma : K × K} {r : K} (hr : 0 < r) {fb : Pairs K d}
    {p : Fin d → Bool} (b e : Pairs K d) (h : ∀ i, SoundRow k r (fb i) (p i) ((b i).1 + (e i).1, (b i).2 + (e i).2))
    (hs : ∀ i, |(e i).1| ≤ sigma.1 ∧ |(e i).2| ≤ sigma.2) (ho : m.grows = true → ∀ i, Outward k (e i)) :
    MutStep m k sigma r fb b fun i => ((b i).1 + (e i).1, (b i).2 + (e i).2) := by
  have key := constrain_sound hr h
  have hsort : k = .ordered → sortRows (fun i => ((b i).1 + (e i).1, (b i).2 + (e i).2)) =
      fun i => ((b i).1 + (e i).1, (b i).2 + (e i).2) := by
    rintro rfl
    funext i
    have := (h i).2.1
    dsimp only at this
    unfold sortRows
    dsimp only
    rw [min_eq_left (by linarith), max_eq_right (by linarith)]
  have hgrow : growNoise (fun i => (-(e i).1, (e i).2)) b = fun i => ((b i).1 + (e i).1, (b i).2 + (e i).2) := by
    funext i; unfold growNoise; dsimp only; rw [sub_neg_eq_add]
  have hadd : addNoise e b = fun i => ((b i).1 + (e i).1, (b i).2 + (e i).2) := rfl
  have habs : ∀ i, -sigma.1 ≤ (e i).1 ∧ (e i).1 ≤ sigma.1 ∧ -sigma.2 ≤ (e i).2 ∧ (e i).2 ≤ sigma.2 := fun i =>
    ⟨(abs_le.1 (hs i).1).1, (abs_le.1 (hs i).1).2, (abs_le.1 (hs i).2).1, (abs_le.1 (hs i).2).2⟩
  cases m with
  | halfnorm => exact absurd rfl hm.1
  | normal =>
    refine ⟨e, trivial, ?_⟩
    cases k <;> unfold childBounds mutate <;> dsimp only <;> first | rw [hadd, hsort rfl, key] | rw [hadd, key]
  | uniform =>
    refine ⟨e, habs, ?_⟩
    cases k <;> unfold childBounds mutate <;> dsimp only <;> first | rw [hadd, hsort rfl, key] | rw [hadd, key]
  | halfnormIncrease =>
    have ho := ho rfl
    cases k with
    | ordered =>
      refine ⟨fun i => (-(e i).1, (e i).2), fun i => ⟨neg_nonneg.2 (ho i).1, (ho i).2⟩, ?_⟩
      unfold childBounds mutate
      dsimp only
      rw [hgrow, hsort rfl, key]
    | unordered => exact absurd ⟨rfl, rfl⟩ hm.2
    | centerSpread =>
      refine ⟨e, fun i => ho i, ?_⟩
      unfold childBounds mutate
      dsimp only
      rw [hadd, key]
    | minPercentage =>
      refine ⟨fun i => (-(e i).1, (e i).2), fun i => ⟨neg_nonneg.2 (ho i).1, (ho i).2⟩, ?_⟩
      unfold childBounds mutate
      dsimp only
      rw [hgrow, key]
  | uniformIncrease =>
    have ho := ho rfl
    have e2 : (fun i => ((b i).1 - -(e i).1, (b i).2 + (e i).2)) = fun i => ((b i).1 + (e i).1, (b i).2 + (e i).2) := hgrow
    cases k with
    | ordered =>
      refine ⟨fun i => (-(e i).1, (e i).2), fun i => ⟨neg_nonneg.2 (ho i).1, by dsimp only; linarith [(habs i).1],
        (ho i).2, (habs i).2.2.2⟩, ?_⟩
      unfold childBounds mutate
      dsimp only
      rw [hgrow, hsort rfl, key]
    | unordered => exact absurd ⟨rfl, rfl⟩ hm.2
    | centerSpread =>
      refine ⟨fun i => (-(e i).1, (e i).2), fun i => ⟨by dsimp only; linarith [(habs i).2.1],
        by dsimp only; linarith [(habs i).1], ho i, (habs i).2.2.2⟩, ?_⟩
      unfold childBounds mutate
      dsimp only
      rw [e2, key]
    | minPercentage =>
      refine ⟨fun i => (-(e i).1, (e i).2), fun i => ⟨neg_nonneg.2 (ho i).1, by dsimp only; linarith [(habs i).1],
        (ho i).2, (habs i).2.2.2⟩, ?_⟩
      unfold childBounds mutate
      dsimp only
      rw [hgrow, key]

theorem turns_head {R : Type} {step : R → R → Prop} {b b1 b2 : R} (s : step b b1) (h : Turns step b1 b2) :
    Turns step b b2 := by
  induction h with
  | none => exact .more _ _ _ (.none _) s
  | more b1 b2 _ s' ih => exact .more _ _ _ ih s'

theorem shift_reach [Archimedean K] {m : Mutation} {k : Kind} (hm : Shifts m k) {sigma : K × K}
    (hs : 0 < sigma.1 ∧ 0 < sigma.2) {r : K} (hr : 0 < r) {fb : Pairs K d} {p : Fin d → Bool} (b t : Pairs K d)
    (hb : ∀ i, SoundRow k r (fb i) (p i) (b i)) (ht : ∀ i, SoundRow k r (fb i) (p i) (t i))
    (ho : m.grows = true → ∀ i, Outward k ((t i).1 - (b i).1, (t i).2 - (b i).2)) :
    Turns (MutStep m k sigma r fb) b t := by
  have hN : ∃ N : ℕ, ∀ i, |(t i).1 - (b i).1| ≤ N * sigma.1 ∧ |(t i).2 - (b i).2| ≤ N * sigma.2 := by
    have h1 : ∀ i, ∃ n : ℕ, |(t i).1 - (b i).1| ≤ n * sigma.1 ∧ |(t i).2 - (b i).2| ≤ n * sigma.2 := by
      intro i
      obtain ⟨n1, e1⟩ := Archimedean.arch (|(t i).1 - (b i).1|) hs.1
      obtain ⟨n2, e2⟩ := Archimedean.arch (|(t i).2 - (b i).2|) hs.2
      rw [nsmul_eq_mul] at e1 e2
      refine ⟨max n1 n2, e1.trans (mul_le_mul_of_nonneg_right ?_ hs.1.le),
        e2.trans (mul_le_mul_of_nonneg_right ?_ hs.2.le)⟩
      · exact_mod_cast le_max_left n1 n2
      · exact_mod_cast le_max_right n1 n2
    choose n hn using h1
    refine ⟨Finset.univ.sup n, fun i => ?_⟩
    have hle : (n i : K) ≤ (Finset.univ.sup n : ℕ) := by exact_mod_cast Finset.le_sup (Finset.mem_univ i)
    exact ⟨(hn i).1.trans (mul_le_mul_of_nonneg_right hle hs.1.le),
      (hn i).2.trans (mul_le_mul_of_nonneg_right hle hs.2.le)⟩
  obtain ⟨N, hN⟩ := hN
  have hM : (0 : K) < N + 1 := by positivity
  have small : ∀ {x s : K}, 0 < s → |x| ≤ N * s → |x / (N + 1)| ≤ s := by
    intro x s hs hx
    rw [abs_div, abs_of_pos hM, div_le_iff₀ hM]
    linarith
  have key : ∀ j : ℕ, j ≤ N + 1 → Turns (MutStep m k sigma r fb) b fun i =>
      ((b i).1 + j * (((t i).1 - (b i).1) / (N + 1)), (b i).2 + j * (((t i).2 - (b i).2) / (N + 1))) := by
    intro j
    induction j with
    | zero =>
      intro _
      have : b = fun i => ((b i).1 + ((0 : ℕ) : K) * (((t i).1 - (b i).1) / (N + 1)),
          (b i).2 + ((0 : ℕ) : K) * (((t i).2 - (b i).2) / (N + 1))) := by
        funext i; simp
      rw [← this]
      exact .none b
    | succ j ih =>
      intro hj
      have e : ∀ x y : K, x + ((j + 1 : ℕ) : K) * (y / (N + 1)) = x + j * (y / (N + 1)) + y / (N + 1) := by
        intro x y; push_cast; ring
      refine .more _ _ _ (ih (by omega)) ?_
      have hst := small_step (p := p) (fb := fb) hm hr (sigma := sigma)
        (fun i => ((b i).1 + j * (((t i).1 - (b i).1) / (N + 1)), (b i).2 + j * (((t i).2 - (b i).2) / (N + 1))))
        (fun i => (((t i).1 - (b i).1) / (N + 1), ((t i).2 - (b i).2) / (N + 1))) ?_
        (fun i => ⟨small hs.1 (hN i).1, small hs.2 (hN i).2⟩) ?_
      · dsimp only at hst
        simp only [e]
        exact hst
      · intro i
        dsimp only
        rw [← e, ← e]
        have hc : (((j + 1 : ℕ) : K) / (N + 1)) ≤ 1 := by
          rw [div_le_one hM]
          exact_mod_cast hj
        have := (hb i).between (ht i) (c := ((j + 1 : ℕ) : K) / (N + 1)) (by positivity) hc
        have e' : ∀ y : K, ((j + 1 : ℕ) : K) * (y / (N + 1)) = ((j + 1 : ℕ) : K) / (N + 1) * y := by
          intro y; ring
        rw [e', e']
        exact this
      · intro hg i
        have := ho hg i
        cases k <;> dsimp only [Outward] at * <;>
          first
            | exact ⟨div_nonpos_of_nonpos_of_nonneg this.1 hM.le, div_nonneg this.2 hM.le⟩
            | exact div_nonneg this hM.le
  have := key (N + 1) le_rfl
  have e : t = fun i => ((b i).1 + ((N + 1 : ℕ) : K) * (((t i).1 - (b i).1) / (N + 1)),
      (b i).2 + ((N + 1 : ℕ) : K) * (((t i).2 - (b i).2) / (N + 1))) := by
    funext i
    have : ∀ x y : K, x + ((N + 1 : ℕ) : K) * ((y - x) / (N + 1)) = y := by
      intro x y
      push_cast
      rw [mul_div_cancel₀ _ hM.ne', add_sub_cancel]
    rw [this, this]
  rw [e]
  exact this

/-! ### `Halfnorm` -/

theorem halfnorm_step {k : Kind} (hk : k = .ordered ∨ k = .unordered) {sigma : K × K} {r : K} (hr : 0 < r)
    {fb b : Pairs K d} {lo hi : Point K d} (h : Roomy fb r lo hi)
    (hm : InBox lo hi fun i => ((b i).1 + (b i).2) / 2) :
    MutStep .halfnorm k sigma r fb b fun i => (lo i, hi i) := by
  have e : aroundMean (fun i => (((b i).1 + (b i).2) / 2 - lo i, hi i - ((b i).1 + (b i).2) / 2)) b =
      fun i => (lo i, hi i) := by
    funext i; unfold aroundMean; refine Prod.ext ?_ ?_ <;> dsimp only <;> ring
  have hsort : sortRows (fun i => (lo i, hi i)) = fun i => (lo i, hi i) := by
    funext i
    unfold sortRows
    dsimp only
    rw [min_eq_left (by linarith [(h i).2.1]), max_eq_right (by linarith [(h i).2.1])]
  refine ⟨fun i => (((b i).1 + (b i).2) / 2 - lo i, hi i - ((b i).1 + (b i).2) / 2),
    fun i => ⟨sub_nonneg.2 (hm i).1, sub_nonneg.2 (hm i).2⟩, ?_⟩
  rcases hk with rfl | rfl
  · unfold childBounds mutate
    dsimp only
    rw [e, hsort, constrain_sound (k := .ordered) (fb := fb) (b := fun i => (lo i, hi i)) (p := fun _ => false) hr fun i => h i]
  · unfold childBounds mutate
    dsimp only
    rw [e, constrain_sound (p := fun _ => false) hr fun i => ?_]
    exact (h i).2.1

theorem halfnorm_reach {k : Kind} (hk : k = .ordered ∨ k = .unordered) {sigma : K × K} {r : K} (hr : 0 < r)
    {fb : Pairs K d} {lo hi : Point K d} (h : Roomy fb r lo hi) (n : ℕ) : ∀ b : Pairs K d,
    InBounds fb (fun i => ((b i).1 + (b i).2) / 2) →
    (∀ i, hi i - ((b i).1 + (b i).2) / 2 ≤ 2 ^ n * (hi i - lo i) ∧
      ((b i).1 + (b i).2) / 2 - lo i ≤ 2 ^ n * (hi i - lo i)) →
    Turns (MutStep .halfnorm k sigma r fb) b fun i => (lo i, hi i) := by
  induction n with
  | zero =>
    intro b _ hg
    refine .more _ _ _ (.none b) (halfnorm_step hk hr h fun i => ?_)
    have := hg i
    rw [pow_zero, one_mul] at this
    exact ⟨by linarith [this.1], by linarith [this.2]⟩
  | succ n ih =>
    intro b hin hg
    have hw : ∀ i, hi i - lo i ≤ 2 ^ n * (hi i - lo i) := by
      intro i
      have h1 : (1 : K) ≤ 2 ^ n := one_le_pow₀ (by norm_num)
      have : 0 ≤ hi i - lo i := by linarith [(h i).2.1]
      nlinarith
    have hin : ∀ i, (fb i).1 ≤ ((b i).1 + (b i).2) / 2 ∧ ((b i).1 + (b i).2) / 2 ≤ (fb i).2 := hin
    obtain ⟨mid, hmid⟩ : ∃ mid : Point K d, mid = fun i => ((b i).1 + (b i).2) / 2 := ⟨_, rfl⟩
    have hin' : ∀ i, (fb i).1 ≤ mid i ∧ mid i ≤ (fb i).2 := by rw [hmid]; exact hin
    have hg' : ∀ i, hi i - mid i ≤ 2 * (2 ^ n * (hi i - lo i)) ∧ mid i - lo i ≤ 2 * (2 ^ n * (hi i - lo i)) := by
      intro i
      have := hg i
      rw [hmid, ← mul_assoc, ← pow_succ']
      exact this
    refine turns_head (b1 := fun i => (min (mid i) (lo i), max (mid i) (hi i)))
      (halfnorm_step hk hr (lo := fun i => min (mid i) (lo i)) (hi := fun i => max (mid i) (hi i)) ?_ ?_) (ih _ ?_ ?_)
    · intro i
      obtain ⟨h1, h2, h3⟩ := h i
      refine ⟨le_min (hin' i).1 h1, ?_, max_le (hin' i).2 h3⟩
      have := min_le_right (mid i) (lo i)
      have := le_max_right (mid i) (hi i)
      linarith
    · intro i
      rw [← hmid]
      exact ⟨min_le_left _ _, le_max_left _ _⟩
    · intro i
      obtain ⟨h1, h2, h3⟩ := h i
      have a1 := le_min (hin' i).1 h1
      have a2 := max_le (hin' i).2 h3
      have a3 : min (mid i) (lo i) ≤ max (mid i) (hi i) := le_trans (min_le_left _ _) (le_max_left _ _)
      dsimp only
      exact ⟨by linarith, by linarith⟩
    · intro i
      obtain ⟨h1, h2, h3⟩ := h i
      have := hw i
      obtain ⟨g1, g2⟩ := hg' i
      dsimp only
      rcases le_total (mid i) (lo i) with c | c
      · rw [min_eq_left c, max_eq_right (by linarith)]
        constructor <;> linarith
      · rw [min_eq_right c]
        rcases le_total (mid i) (hi i) with c' | c'
        · rw [max_eq_right c']
          constructor <;> linarith
        · rw [max_eq_left c']
          constructor <;> linarith

/-! ### C153 -/

/-- C153 (for centre/spread and minimum/percentage rules if the features lie between -1 and 1; for other feature bounds see
the refutation below): with any positive strength and any positive minimum range, repeated mutation followed by the
constraints can turn a rule with a box in the feature bounds that is nowhere narrower than the minimum range into a rule with
any other such box – for the increase mutations, any such box around the one of the rule – for every combination of mutation
and matching type that is implemented. -/
theorem C153_partial [Archimedean K] (m : Mutation) (k : Kind) (sigma : K × K) (hs : 0 < sigma.1 ∧ 0 < sigma.2)
    (r : K) (hr : 0 < r) (fb : Pairs K d) (hfb : FeaturesFit k fb)
    (himpl : ∀ z b : Pairs K d, ∃ b', mutate m k z b = .ok b')
    (b : Pairs K d) (lo hi lo' hi' : Point K d) (h : Roomy fb r lo hi) (h' : Roomy fb r lo' hi')
    (hb : HasBox k.call b lo hi) (hg : m.grows = true → PartOf lo hi lo' hi') :
    ∃ b', Turns (MutStep m k sigma r fb) b b' ∧ HasBox k.call b' lo' hi' := by
  obtain ⟨p, rfl⟩ := described hfb hr h hb
  by_cases hm : m = .halfnorm
  · subst hm
    have hk : k = .ordered ∨ k = .unordered := by
      obtain ⟨b', e⟩ := himpl (fun _ => (0, 0)) fun _ => (0, 0)
      cases k
      · exact .inl rfl
      · exact .inr rfl
      · exact absurd e (by simp [mutate])
      · exact absurd e (by simp [mutate])
    have hbox : HasBox k.call (fun i => (lo' i, hi' i)) lo' hi' := by
      rcases hk with rfl | rfl
      · exact describe_box (k := .ordered) hfb hr (fun _ => false) h'
      · exact describe_box (k := .unordered) hfb hr (fun _ => false) h'
    have hmid : (fun i => ((describe k (p i) (lo i) (hi i)).1 + (describe k (p i) (lo i) (hi i)).2) / 2) =
        fun i => (lo i + hi i) / 2 := by
      funext i
      rcases hk with rfl | rfl
      · rfl
      · dsimp only [describe]
        cases p i
        · rw [if_neg (by simp)]
        · rw [if_pos rfl, add_comm]
    have hn : ∃ n : ℕ, ∀ i, hi' i - (lo i + hi i) / 2 ≤ 2 ^ n * (hi' i - lo' i) ∧
        (lo i + hi i) / 2 - lo' i ≤ 2 ^ n * (hi' i - lo' i) := by
      have h1 : ∀ i, ∃ n : ℕ, hi' i - (lo i + hi i) / 2 ≤ 2 ^ n * (hi' i - lo' i) ∧
          (lo i + hi i) / 2 - lo' i ≤ 2 ^ n * (hi' i - lo' i) := by
        intro i
        have hw : 0 < hi' i - lo' i := by linarith [(h' i).2.1]
        obtain ⟨n, e⟩ := Archimedean.arch ((fb i).2 - (fb i).1) hw
        rw [nsmul_eq_mul] at e
        have hn : (n : K) ≤ 2 ^ n := by exact_mod_cast Nat.lt_two_pow_self.le
        have := e.trans (mul_le_mul_of_nonneg_right hn hw.le)
        obtain ⟨a1, a2, a3⟩ := h i
        obtain ⟨b1, b2, b3⟩ := h' i
        exact ⟨n, by linarith, by linarith⟩
      choose n hn using h1
      refine ⟨Finset.univ.sup n, fun i => ?_⟩
      have hle : (2 : K) ^ n i ≤ 2 ^ Finset.univ.sup n :=
        pow_le_pow_right₀ (by norm_num) (Finset.le_sup (Finset.mem_univ i))
      have hw : 0 ≤ hi' i - lo' i := by linarith [(h' i).2.1]
      exact ⟨(hn i).1.trans (mul_le_mul_of_nonneg_right hle hw), (hn i).2.trans (mul_le_mul_of_nonneg_right hle hw)⟩
    obtain ⟨n, hn⟩ := hn
    refine ⟨_, halfnorm_reach hk hr h' n _ ?_ ?_, hbox⟩
    · rw [hmid]
      intro i
      obtain ⟨a1, a2, a3⟩ := h i
      exact ⟨by dsimp only; linarith, by dsimp only; linarith⟩
    · intro i
      rw [congrFun hmid i]
      exact hn i
  · have hsh : Shifts m k := by
      refine ⟨hm, ?_⟩
      rintro ⟨hg, rfl⟩
      obtain ⟨b', e⟩ := himpl (fun _ => (0, 0)) fun _ => (0, 0)
      cases m <;> simp [Mutation.grows, mutate] at hg e
    refine ⟨_, shift_reach hsh hs hr _ _ (describe_sound hfb hr p h) (describe_sound hfb hr p h') ?_,
      describe_box hfb hr p h'⟩
    intro hgr i
    obtain ⟨g1, g2⟩ := hg hgr i
    obtain ⟨a1, a2, a3⟩ := h i
    obtain ⟨b1, b2, b3⟩ := h' i
    cases k with
    | ordered => dsimp only [Outward, describe]; exact ⟨by linarith, by linarith⟩
    | unordered => exact absurd ⟨hgr, rfl⟩ hsh.2
    | centerSpread => dsimp only [Outward, describe]; linarith
    | minPercentage =>
      rw [hfb.unit (by simp) (by simp) i] at a3 b3
      dsimp only [Outward, describe] at *
      have p1 : 0 < 1 - lo i := by linarith
      have p2 : 0 < 1 - lo' i := by linarith
      refine ⟨by linarith, ?_⟩
      rw [sub_nonneg, div_le_div_iff₀ p1 p2]
      nlinarith [mul_nonneg (sub_nonneg.2 g2) p1.le, mul_nonneg (sub_nonneg.2 g1) (sub_nonneg.2 a3)]

/-- Nothing of this is special: `Uniform` mutation of strength 1/10 and a minimum range of 1/100 in two dimensions with feature
bounds `[0, 10]` and `[-5, 5]`, from `[0, 1] × [0, 1]` to `[8, 9] × [-5, 5]`. -/
example : ∃ b', Turns (MutStep .uniform .ordered (1/10, 1/10) (1/100 : ℚ) ![(0, 10), (-5, 5)]) ![(0, 1), (0, 1)] b' ∧
    HasBox Kind.ordered.call b' ![8, -5] ![9, 5] :=
  C153_partial .uniform .ordered _ ⟨by norm_num, by norm_num⟩ _ (by norm_num) _ (.inl rfl) (fun _ _ => ⟨_, rfl⟩) _
    ![0, 0] ![1, 1] _ _ (by unfold Roomy; decide +kernel) (by unfold Roomy; decide +kernel)
    (fun x => (OrderedBound.call_iff _ x).trans (forall_congr' fun i => by fin_cases i <;> rfl))
    (fun h => absurd h (by decide))

/-- A minimum/percentage rule growing from `[0, 1/2]` to `[-1/2, 3/4]`. -/
example : ∃ b', Turns (MutStep .uniformIncrease .minPercentage (1/10, 1/10) (1/100 : ℚ) ![(-1, 1)]) ![(0, 1/2)] b' ∧
    HasBox Kind.minPercentage.call b' ![-1/2] ![3/4] :=
  C153_partial .uniformIncrease .minPercentage _ ⟨by norm_num, by norm_num⟩ _ (by norm_num) _
    (.inr (.inr (by decide +kernel))) (fun _ _ => ⟨_, rfl⟩) _
    ![0] ![1/2] _ _ (by unfold Roomy; decide +kernel) (by unfold Roomy; decide +kernel)
    (fun x => (MinPercentage.call_iff _ x).trans (forall_congr' fun i => by fin_cases i; simp))
    (fun _ => by unfold PartOf; decide +kernel)

/-- C153 (refuted for centre/spread rules and other feature bounds): with features between 0 and 10 no centre/spread rule ever
matches samples beyond 3, whatever is drawn, because the constraints confine the centre to `[-1, 1]` and the spread to `[0, 2]`.
Witness: from `[0, 1]` the box `[5, 6]` is out of reach of normal mutations. -/
theorem C153_centerSpread_refuted :
    ¬ ∀ (m : Mutation) (k : Kind) (sigma : ℚ × ℚ), 0 < sigma.1 ∧ 0 < sigma.2 → ∀ (r : ℚ), 0 < r → ∀ (fb : Pairs ℚ 1),
      (∀ z b : Pairs ℚ 1, ∃ b', mutate m k z b = .ok b') → ∀ (b : Pairs ℚ 1) (lo hi lo' hi' : Point ℚ 1),
      Roomy fb r lo hi → Roomy fb r lo' hi' → HasBox k.call b lo hi → (m.grows = true → PartOf lo hi lo' hi') →
      ∃ b', Turns (MutStep m k sigma r fb) b b' ∧ HasBox k.call b' lo' hi' := by
  intro hall
  obtain ⟨b', ht, hb'⟩ := hall .normal .centerSpread (1, 1) ⟨by norm_num, by norm_num⟩ (1/10) (by norm_num) ![(0, 10)]
    (fun _ _ => ⟨_, rfl⟩) ![(1/2, 1/2)] ![0] ![1] ![5] ![6] (by unfold Roomy; decide +kernel)
    (by unfold Roomy; decide +kernel)
    (fun x => (CenterSpread.call_iff _ x).trans (forall_congr' fun i => by fin_cases i; norm_num))
    (fun h => absurd h (by decide))
  have h6 := (CenterSpread.call_iff b' ![6]).1 ((hb' ![6]).2 (by decide +kernel)) 0
  have h6 : (6 : ℚ) ≤ (b' 0).1 + (b' 0).2 := h6.2
  cases ht with
  | none => norm_num at h6
  | more b1 _ _ s =>
    obtain ⟨z, _, e⟩ := s
    simp only [childBounds, mutate, constrain, Except.ok.injEq] at e
    rw [← e] at h6
    dsimp only [Kind.clip, CenterSpread.clip] at h6
    have l1 := npClip_le (-1 : ℚ) 1 (Kind.centerSpread.minRange (1/10) (addNoise z b1) 0).1
    have l2 := npClip_le (0 : ℚ) 2 (Kind.centerSpread.minRange (1/10) (addNoise z b1) 0).2
    linarith

/-- C153 (the default configuration: ordered rules, initialised at a sample, grown by `HalfnormIncrease`): from the
initial rule of a sample `x` a single mutation can lead to any box in the feature bounds that is nowhere narrower than the
minimum range and contains the part of `[x - r/2, x + r/2]` in the feature bounds. -/
theorem C153_origin_partial (sigma : K × K) (r : K) (hr : 0 < r) (fb : Pairs K d) (x : Point K d) (hx : InBounds fb x)
    (lo hi : Point K d) (h : Roomy fb r lo hi)
    (hin : ∀ i, lo i ≤ max (x i - r / 2) (fb i).1 ∧ min (x i + r / 2) (fb i).2 ≤ hi i) :
    ∃ b', MutStep .halfnormIncrease .ordered sigma r fb (constrain .ordered r fb (meanInit .ordered x)) b' ∧
      HasBox Kind.ordered.call b' lo hi := by
  have e0 : constrain .ordered r fb (meanInit .ordered x) =
      fun i => (max (x i - r / 2) (fb i).1, min (x i + r / 2) (fb i).2) := by
    funext i
    obtain ⟨h1, h2⟩ := hx i
    have e : OrderedBound.minRange r (meanInit .ordered x) i = (x i - r / 2, x i + r / 2) := by
      unfold OrderedBound.minRange
      rw [if_pos hr]
      exact if_pos (show x i - x i < r by rw [sub_self]; exact hr)
    dsimp only [constrain, Kind.clip, OrderedBound.clip, Kind.minRange, npClip]
    rw [e]
    refine Prod.ext ?_ ?_
    · exact min_eq_left (max_le (by dsimp only at h2 ⊢; linarith) (by dsimp only at h1 h2; linarith))
    · dsimp only at h1 ⊢
      rw [max_eq_left (by linarith)]
  refine ⟨fun i => (lo i, hi i), ⟨fun i => (max (x i - r / 2) (fb i).1 - lo i, hi i - min (x i + r / 2) (fb i).2),
    fun i => ⟨sub_nonneg.2 (hin i).1, sub_nonneg.2 (hin i).2⟩, ?_⟩,
    describe_box (k := .ordered) (.inl rfl) hr (fun _ => false) h⟩
  rw [e0]
  have e1 : growNoise (fun i => (max (x i - r / 2) (fb i).1 - lo i, hi i - min (x i + r / 2) (fb i).2))
      (fun i => (max (x i - r / 2) (fb i).1, min (x i + r / 2) (fb i).2)) = fun i => (lo i, hi i) := by
    funext i; unfold growNoise; dsimp only; rw [sub_sub_cancel, add_sub_cancel]
  have hsort : sortRows (fun i => (lo i, hi i)) = fun i => (lo i, hi i) := by
    funext i
    unfold sortRows
    dsimp only
    rw [min_eq_left (by linarith [(h i).2.1]), max_eq_right (by linarith [(h i).2.1])]
  unfold childBounds mutate
  dsimp only
  rw [e1, hsort, constrain_sound (k := .ordered) (fb := fb) (b := fun i => (lo i, hi i)) (p := fun _ => false) hr fun i => h i]

/-- From the sample 3 with feature bounds `[0, 10]` to the box `[2, 10]`. -/
example : ∃ b', MutStep .halfnormIncrease .ordered (1, 1) (1/10 : ℚ) ![(0, 10)]
    (constrain .ordered (1/10) ![(0, 10)] (meanInit .ordered ![3])) b' ∧
    HasBox Kind.ordered.call b' ![2] ![10] :=
  C153_origin_partial _ _ (by norm_num) _ _ (by decide +kernel) _ _ (by unfold Roomy; decide +kernel) (by decide +kernel)

end Suprb
