import Verif.Model.NanFitness
import Mathlib.Data.List.Sort

/-!
# CPython's `list.sort` is the stable sorting by the key whenever the keys are ordered
-/

set_option autoImplicit false
set_option linter.unusedSectionVars false

namespace Suprb

variable {α F : Type} [LinearOrder F]

/-- Two lists sorted by the same key, with the same elements of each key in the same order, are equal. -/
theorem eq_of_sorted_of_filter (key : α → F) (l₁ l₂ : List α) (h₁ : l₁.Pairwise fun a b => key a ≤ key b) (h₂ : l₂.Pairwise fun a b => key a ≤ key b)
    (h : ∀ k, l₁.filter (fun a => key a = k) = l₂.filter (fun a => key a = k)) : l₁ = l₂ := by
  induction l₁ generalizing l₂ with
  | nil =>
    cases l₂ with
    | nil => rfl
    | cons b t =>
      have := h (key b)
      rw [List.filter_nil, List.filter_cons_of_pos (by simp)] at this
      cases this
  | cons a s ih =>
    cases l₂ with
    | nil =>
      have := h (key a)
      rw [List.filter_nil, List.filter_cons_of_pos (by simp)] at this
      cases this
    | cons b t =>
      have ha : a ∈ b :: t := by
        have : a ∈ (b :: t).filter (fun x => key x = key a) := by rw [← h]; simp
        exact List.mem_of_mem_filter this
      have hb : b ∈ a :: s := by
        have : b ∈ (a :: s).filter (fun x => key x = key b) := by rw [h]; simp
        exact List.mem_of_mem_filter this
      rw [List.pairwise_cons] at h₁ h₂
      have hab : key a = key b := by
        refine le_antisymm ?_ ?_
        · rcases List.mem_cons.mp hb with rfl | hb
          · exact le_rfl
          · exact h₁.1 b hb
        · rcases List.mem_cons.mp ha with rfl | ha
          · exact le_rfl
          · exact h₂.1 a ha
      have e := h (key a)
      rw [List.filter_cons_of_pos (by simp), List.filter_cons_of_pos (by simp [hab])] at e
      obtain ⟨rfl, _⟩ := List.cons.inj e
      refine congrArg _ (ih t h₁.2 h₂.2 fun k => ?_)
      have := h k
      by_cases hk : key a = k
      · rw [List.filter_cons_of_pos (by simpa using hk), List.filter_cons_of_pos (by simpa using hk)] at this
        exact (List.cons.inj this).2
      · rwa [List.filter_cons_of_neg (by simpa using hk), List.filter_cons_of_neg (by simpa using hk)] at this

theorem orderedInsert_filter (key : α → F) (a : α) (l : List α) (k : F) :
    (l.orderedInsert (fun a b => key a ≤ key b) a).filter (fun a => key a = k) = (a :: l).filter (fun a => key a = k) := by
  induction l with
  | nil => rfl
  | cons b l ih =>
    rw [List.orderedInsert_cons]
    by_cases h : key a ≤ key b
    · rw [if_pos h]
    · rw [if_neg h]
      by_cases hb : key b = k
      · have ha : key a ≠ k := fun e => h (by rw [e, hb])
        rw [List.filter_cons_of_pos (by simpa using hb), ih, List.filter_cons_of_neg (by simpa using ha), List.filter_cons_of_neg (by simpa using ha),
          List.filter_cons_of_pos (by simpa using hb)]
      · rw [List.filter_cons_of_neg (by simpa using hb), ih]
        by_cases ha : key a = k
        · rw [List.filter_cons_of_pos (by simpa using ha), List.filter_cons_of_pos (by simpa using ha), List.filter_cons_of_neg (by simpa using hb)]
        · rw [List.filter_cons_of_neg (by simpa using ha), List.filter_cons_of_neg (by simpa using ha), List.filter_cons_of_neg (by simpa using hb)]

theorem insertionSort_filter (key : α → F) (l : List α) (k : F) :
    (l.insertionSort (fun a b => key a ≤ key b)).filter (fun a => key a = k) = l.filter (fun a => key a = k) := by
  induction l with
  | nil => rfl
  | cons a l ih =>
    rw [List.insertionSort_cons, orderedInsert_filter]
    by_cases ha : key a = k
    · rw [List.filter_cons_of_pos (by simpa using ha), List.filter_cons_of_pos (by simpa using ha), ih]
    · rw [List.filter_cons_of_neg (by simpa using ha), List.filter_cons_of_neg (by simpa using ha), ih]

theorem insertionSort_pairwise (key : α → F) (l : List α) : (l.insertionSort (fun a b => key a ≤ key b)).Pairwise fun a b => key a ≤ key b := by
  have : Std.Total (fun a b : α => key a ≤ key b) := ⟨fun a b => le_total _ _⟩
  have : IsTrans α (fun a b : α => key a ≤ key b) := ⟨fun a b c => le_trans⟩
  exact List.pairwise_insertionSort (fun a b : α => key a ≤ key b) l

/-! ### The parts of the algorithm -/

section Ordered

variable (key : α → F) (lt : α → α → Bool)

/-- `lt` compares the keys of the elements of `l`. -/
def ComparesOn (l : List α) : Prop := ∀ a ∈ l, ∀ b ∈ l, lt a b = decide (key a < key b)

theorem ComparesOn.mono {key : α → F} {lt : α → α → Bool} {l l' : List α} (h : ComparesOn key lt l) (hs : ∀ a ∈ l', a ∈ l) : ComparesOn key lt l' :=
  fun a ha b hb => h a (hs a ha) b (hs b hb)

theorem ascending_append (prev : α) (l : List α) : (ascending lt prev l).1 ++ (ascending lt prev l).2 = l := by
  induction l generalizing prev with
  | nil => rfl
  | cons b l ih =>
    unfold ascending
    by_cases h : lt b prev = true
    · rw [if_pos h]; rfl
    · rw [if_neg h]; exact congrArg _ (ih b)

theorem descending_append (prev : α) (l : List α) : (descending lt prev l).1 ++ (descending lt prev l).2 = l := by
  induction l generalizing prev with
  | nil => rfl
  | cons b l ih =>
    unfold descending
    by_cases h : lt b prev = true
    · rw [if_pos h]; exact congrArg _ (ih b)
    · rw [if_neg h]; rfl

theorem ascending_sorted (prev : α) (l : List α) (h : ComparesOn key lt (prev :: l)) :
    (prev :: (ascending lt prev l).1).Pairwise fun a b => key a ≤ key b := by
  induction l generalizing prev with
  | nil => exact List.pairwise_singleton _ _
  | cons b l ih =>
    unfold ascending
    by_cases hb : lt b prev = true
    · rw [if_pos hb]; exact List.pairwise_singleton _ _
    · rw [if_neg hb]
      have hle : key prev ≤ key b := by
        rw [h b (by simp) prev (by simp)] at hb
        simpa using hb
      have := ih b (h.mono fun a ha => List.mem_cons_of_mem _ ha)
      rw [List.pairwise_cons]
      refine ⟨fun c hc => ?_, this⟩
      rcases List.mem_cons.mp hc with rfl | hc
      · exact hle
      · exact hle.trans ((List.pairwise_cons.mp this).1 c hc)

theorem descending_sorted (prev : α) (l : List α) (h : ComparesOn key lt (prev :: l)) :
    (prev :: (descending lt prev l).1).Pairwise fun a b => key b < key a := by
  induction l generalizing prev with
  | nil => exact List.pairwise_singleton _ _
  | cons b l ih =>
    unfold descending
    by_cases hb : lt b prev = true
    · rw [if_pos hb]
      have hlt : key b < key prev := by
        rw [h b (by simp) prev (by simp)] at hb
        simpa using hb
      have := ih b (h.mono fun a ha => List.mem_cons_of_mem _ ha)
      rw [List.pairwise_cons]
      refine ⟨fun c hc => ?_, this⟩
      rcases List.mem_cons.mp hc with rfl | hc
      · exact hlt
      · exact ((List.pairwise_cons.mp this).1 c hc).trans hlt
    · rw [if_neg hb]; exact List.pairwise_singleton _ _

/-- In a list with strictly decreasing keys the elements of one key are at most one, so reversing does not change them. -/
theorem filter_reverse_of_descending (l : List α) (h : l.Pairwise fun a b => key b < key a) (k : F) :
    l.reverse.filter (fun a => key a = k) = l.filter (fun a => key a = k) := by
  rw [List.filter_reverse]
  induction l with
  | nil => rfl
  | cons a l ih =>
    rw [List.pairwise_cons] at h
    by_cases ha : key a = k
    · have : l.filter (fun a => key a = k) = [] := by
        rw [List.filter_eq_nil_iff]
        intro b hb hbk
        have := h.1 b hb
        rw [ha, of_decide_eq_true hbk] at this
        exact lt_irrefl _ this
      rw [List.filter_cons_of_pos (by simpa using ha), this]
      rfl
    · rw [List.filter_cons_of_neg (by simpa using ha)]
      exact ih h.2

theorem firstRun_spec (l : List α) (h : ComparesOn key lt l) :
    ((firstRun lt l).1.Pairwise fun a b => key a ≤ key b) ∧ ∃ l₁, l = l₁ ++ (firstRun lt l).2 ∧ (∀ a, a ∈ (firstRun lt l).1 ↔ a ∈ l₁) ∧
      ∀ k, (firstRun lt l).1.filter (fun a => key a = k) = l₁.filter (fun a => key a = k) := by
  match l with
  | [] => exact ⟨List.Pairwise.nil, [], rfl, fun a => Iff.rfl, fun k => rfl⟩
  | [a] => exact ⟨List.pairwise_singleton _ _, [a], rfl, fun a => Iff.rfl, fun k => rfl⟩
  | a :: b :: l =>
    unfold firstRun
    dsimp only
    by_cases hb : lt b a = true
    · rw [if_pos hb]
      have hs := descending_sorted key lt a (b :: l) h
      unfold descending at hs
      rw [if_pos hb] at hs
      refine ⟨?_, a :: b :: (descending lt b l).1, ?_, fun c => List.mem_reverse, fun k => filter_reverse_of_descending key _ hs k⟩
      · rw [List.pairwise_reverse]
        exact hs.imp fun h => h.le
      · simp [descending_append]
    · rw [if_neg hb]
      have hs := ascending_sorted key lt a (b :: l) h
      unfold ascending at hs
      rw [if_neg hb] at hs
      refine ⟨hs, a :: b :: (ascending lt b l).1, ?_, fun c => Iff.rfl, fun k => rfl⟩
      simp [ascending_append]

theorem bisect_spec (pivot : α) (l : List α) (hl : l.Pairwise fun a b => key a ≤ key b) (h : ComparesOn key lt (pivot :: l)) (lo hi : Nat)
    (hhi : hi ≤ l.length) (hlo : lo ≤ hi) (hbelow : ∀ a ∈ l.take lo, key a ≤ key pivot) (habove : ∀ a ∈ l.drop hi, key pivot < key a) :
    (∀ a ∈ l.take (bisect lt pivot l lo hi), key a ≤ key pivot) ∧ ∀ a ∈ l.drop (bisect lt pivot l lo hi), key pivot < key a := by
  induction hn : hi - lo using Nat.strong_induction_on generalizing lo hi with
  | _ n ih =>
    unfold bisect
    by_cases hlt : lo < hi
    · rw [dif_pos hlt]
      dsimp only
      have hm : lo + (hi - lo) / 2 < l.length := by omega
      rw [List.getElem?_eq_getElem hm]
      dsimp only
      have hmem : l[lo + (hi - lo) / 2] ∈ l := List.getElem_mem hm
      have hcmp := h pivot (by simp) (l[lo + (hi - lo) / 2]) (List.mem_cons_of_mem _ hmem)
      have hpw : ∀ i j (hi : i < l.length) (hj : j < l.length), i ≤ j → key l[i] ≤ key l[j] := by
        intro i j hi hj hij
        rcases Nat.lt_or_ge i j with hlt | hge
        · exact List.pairwise_iff_getElem.mp hl i j hi hj hlt
        · have : i = j := by omega
          subst this
          exact le_rfl
      by_cases hp : lt pivot (l[lo + (hi - lo) / 2]) = true
      · rw [if_pos hp]
        rw [hcmp] at hp
        have hp := of_decide_eq_true hp
        refine ih _ (by omega) lo (lo + (hi - lo) / 2) (by omega) (by omega) hbelow (fun a ha => ?_) rfl
        obtain ⟨i, hi', rfl⟩ := List.mem_iff_getElem.mp ha
        rw [List.length_drop] at hi'
        rw [List.getElem_drop]
        exact lt_of_lt_of_le hp (hpw _ _ hm (by omega) (by omega))
      · rw [if_neg hp]
        rw [hcmp] at hp
        have hp : key (l[lo + (hi - lo) / 2]) ≤ key pivot := by simpa using hp
        refine ih _ (by omega) (lo + (hi - lo) / 2 + 1) hi hhi (by omega) (fun a ha => ?_) habove rfl
        obtain ⟨i, hi', rfl⟩ := List.mem_iff_getElem.mp ha
        rw [List.length_take] at hi'
        rw [List.getElem_take]
        exact (hpw _ _ (by omega) hm (by omega)).trans hp
    · rw [dif_neg hlt]
      have : lo = hi := by omega
      subst this
      exact ⟨hbelow, habove⟩

theorem insert_spec (pivot : α) (l : List α) (hl : l.Pairwise fun a b => key a ≤ key b) (h : ComparesOn key lt (pivot :: l)) :
    let p := bisect lt pivot l 0 l.length
    ((l.take p ++ pivot :: l.drop p).Pairwise fun a b => key a ≤ key b) ∧ (∀ a, a ∈ l.take p ++ pivot :: l.drop p ↔ a ∈ l ++ [pivot]) ∧
      ∀ k, (l.take p ++ pivot :: l.drop p).filter (fun a => key a = k) = (l ++ [pivot]).filter (fun a => key a = k) := by
  intro p
  obtain ⟨h1, h2⟩ := bisect_spec key lt pivot l hl h 0 l.length le_rfl (Nat.zero_le _) (by simp) (by simp)
  have hsplit : l.take p ++ l.drop p = l := List.take_append_drop p l
  refine ⟨?_, fun a => ?_, fun k => ?_⟩
  · rw [← hsplit, List.pairwise_append] at hl
    rw [List.pairwise_append, List.pairwise_cons]
    refine ⟨hl.1, ⟨fun a ha => (h2 a ha).le, hl.2.1⟩, fun a ha b hb => ?_⟩
    rcases List.mem_cons.mp hb with rfl | hb
    · exact h1 a ha
    · exact hl.2.2 a ha b hb
  · conv_rhs => rw [← hsplit]
    simp only [List.mem_append, List.mem_cons, List.not_mem_nil, or_false]
    tauto
  · conv_rhs => rw [← hsplit]
    rw [List.filter_append, List.filter_append, List.filter_append]
    by_cases hk : key pivot = k
    · have : (l.drop p).filter (fun a => key a = k) = [] := by
        rw [List.filter_eq_nil_iff]
        intro b hb hbk
        have := h2 b hb
        rw [hk, of_decide_eq_true hbk] at this
        exact lt_irrefl _ this
      rw [List.filter_cons_of_pos (by simpa using hk), this, List.append_nil, List.filter_cons_of_pos (by simpa using hk), List.filter_nil]
    · rw [List.filter_cons_of_neg (by simpa using hk), List.filter_cons_of_neg (by simpa using hk), List.filter_nil, List.append_nil]

theorem inserts_spec (rest acc l₁ : List α) (hacc : acc.Pairwise fun a b => key a ≤ key b) (h : ComparesOn key lt (l₁ ++ rest))
    (hmem : ∀ a, a ∈ acc ↔ a ∈ l₁) (hf : ∀ k, acc.filter (fun a => key a = k) = l₁.filter (fun a => key a = k)) :
    let r := rest.foldl (fun acc a => let p := bisect lt a acc 0 acc.length; acc.take p ++ a :: acc.drop p) acc
    (r.Pairwise fun a b => key a ≤ key b) ∧ ∀ k, r.filter (fun a => key a = k) = (l₁ ++ rest).filter (fun a => key a = k) := by
  induction rest generalizing acc l₁ with
  | nil => exact ⟨hacc, fun k => by rw [List.append_nil]; exact hf k⟩
  | cons a rest ih =>
    obtain ⟨i1, i2, i3⟩ := insert_spec key lt a acc hacc (h.mono fun b hb => by
      rcases List.mem_cons.mp hb with rfl | hb
      · simp
      · exact List.mem_append_left _ ((hmem b).mp hb))
    have := ih _ (l₁ ++ [a]) i1 (by rwa [List.append_assoc]) (fun b => by rw [i2 b]; simp [hmem b])
      (fun k => by rw [i3 k, List.filter_append, List.filter_append, hf k])
    rw [List.append_assoc] at this
    exact this

end Ordered

/-- If the comparison is the one of ordered keys, the result is the stable sorting by the key. -/
theorem pySort_eq (key : α → F) (lt : α → α → Bool) (l : List α) (h : ComparesOn key lt l) : pySort lt l = sortedAsc key l := by
  obtain ⟨h1, l₁, h2, h3, h4⟩ := firstRun_spec key lt l h
  obtain ⟨i1, i2⟩ := inserts_spec key lt (firstRun lt l).2 (firstRun lt l).1 l₁ h1 (by rw [← h2]; exact h) h3 h4
  refine eq_of_sorted_of_filter key _ _ i1 (insertionSort_pairwise key l) fun k => ?_
  rw [sortedAsc, insertionSort_filter]
  conv_rhs => rw [h2]
  exact i2 k

/-- With `reverse=True` it is the stable sorting with the largest key first. -/
theorem pySortedDesc_eq (key : α → F) (lt : α → α → Bool) (l : List α) (h : ComparesOn key lt l) : pySortedDesc lt l = sortedDesc key l := by
  unfold pySortedDesc
  rw [pySort_eq key lt _ (h.mono fun a ha => List.mem_reverse.mp ha)]
  refine eq_of_sorted_of_filter (F := Fᵒᵈ) (fun a => OrderDual.toDual (key a)) _ _ ?_ (insertionSort_pairwise (F := Fᵒᵈ) (fun a => OrderDual.toDual (key a)) l) fun k => ?_
  · rw [List.pairwise_reverse]
    exact insertionSort_pairwise key _
  · rw [List.filter_reverse]
    have e1 := insertionSort_filter key l.reverse (OrderDual.ofDual k)
    have e2 := insertionSort_filter (F := Fᵒᵈ) (fun a => OrderDual.toDual (key a)) l k
    rw [List.filter_reverse] at e1
    exact ((congrArg List.reverse e1).trans (List.reverse_reverse _)).trans e2.symm

/-- If no element is smaller than another one, `sorted` changes nothing. -/
theorem ascending_incomparable (lt : α → α → Bool) (prev : α) (l : List α) (h : ∀ a ∈ prev :: l, ∀ b ∈ prev :: l, lt a b = false) :
    ascending lt prev l = (l, []) := by
  induction l generalizing prev with
  | nil => rfl
  | cons b l ih =>
    unfold ascending
    rw [h b (by simp) prev (by simp), if_neg (by simp), ih b fun x hx y hy => h x (List.mem_cons_of_mem _ hx) y (List.mem_cons_of_mem _ hy)]

theorem pySort_incomparable (lt : α → α → Bool) (l : List α) (h : ∀ a ∈ l, ∀ b ∈ l, lt a b = false) : pySort lt l = l := by
  match l with
  | [] => rfl
  | [a] => rfl
  | a :: b :: l =>
    have hr : firstRun lt (a :: b :: l) = (a :: b :: l, []) := by
      unfold firstRun
      dsimp only
      rw [h b (by simp) a (by simp), if_neg (by simp), ascending_incomparable lt b l fun x hx y hy => h x (List.mem_cons_of_mem _ hx) y (List.mem_cons_of_mem _ hy)]
    unfold pySort
    rw [hr]
    rfl

theorem pySortedDesc_incomparable (lt : α → α → Bool) (l : List α) (h : ∀ a ∈ l, ∀ b ∈ l, lt a b = false) : pySortedDesc lt l = l := by
  unfold pySortedDesc
  rw [pySort_incomparable lt _ fun a ha b hb => h a (List.mem_reverse.mp ha) b (List.mem_reverse.mp hb), List.reverse_reverse]

end Suprb
