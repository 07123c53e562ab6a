import Verif.Model.Parallel
import Mathlib.Order.Defs.LinearOrder
import Mathlib.Data.List.Chain

/-!
# Lemmas about `mapM`, sorting, the deque and one generation of the evolution strategy
-/

set_option autoImplicit false
set_option linter.unusedSectionVars false

namespace Suprb

theorem mem_of_mapM_ok {α β : Type} (f : α → Except PyErr β) (l : List α) (l' : List β) (h : l.mapM f = .ok l') :
    ∀ b ∈ l', ∃ a ∈ l, f a = .ok b := by
  induction l generalizing l' with
  | nil => cases h; simp
  | cons a as ih =>
    rw [List.mapM_cons] at h
    cases ha : f a with
    | error e => rw [ha] at h; cases h
    | ok b =>
      rw [ha] at h
      cases has : as.mapM f with
      | error e => rw [has] at h; cases h
      | ok bs =>
        rw [has] at h; cases h
        intro c hc
        rcases List.mem_cons.mp hc with rfl | hc
        · exact ⟨a, List.mem_cons_self .., ha⟩
        · obtain ⟨a', h1, h2⟩ := ih bs has c hc
          exact ⟨a', List.mem_cons_of_mem _ h1, h2⟩

theorem mapM_ok_of_all {α β : Type} (f : α → Except PyErr β) (l : List α) (h : ∀ a ∈ l, ∃ b, f a = .ok b) :
    ∃ l', l.mapM f = .ok l' := by
  induction l with
  | nil => exact ⟨[], rfl⟩
  | cons a as ih =>
    obtain ⟨b, hb⟩ := h a (List.mem_cons_self ..)
    obtain ⟨bs, hbs⟩ := ih fun a' ha' => h a' (List.mem_cons_of_mem _ ha')
    exact ⟨b :: bs, by rw [List.mapM_cons, hb, hbs]; rfl⟩

section Sorting

variable {α F : Type} [LinearOrder F]

theorem sortedDesc_perm (key : α → F) (l : List α) : (sortedDesc key l).Perm l := List.perm_insertionSort _ l

theorem sortedDesc_pairwise (key : α → F) (l : List α) : (sortedDesc key l).Pairwise fun a b => key b ≤ key a := by
  have : Std.Total (fun a b : α => key b ≤ key a) := ⟨fun a b => le_total _ _⟩
  have : IsTrans α (fun a b : α => key b ≤ key a) := ⟨fun a b c h1 h2 => le_trans h2 h1⟩
  exact List.pairwise_insertionSort _ l

theorem fittestFirst_ok (key : α → F) (l : List α) (hne : l ≠ []) :
    ∃ r, fittestFirst key l = .ok r ∧ r ∈ l ∧ ∀ b ∈ l, key b ≤ key r := by
  unfold fittestFirst fittest
  have hp := sortedDesc_perm key l
  have hs := sortedDesc_pairwise key l
  cases h : sortedDesc key l with
  | nil => rw [h] at hp; exact absurd hp.symm.eq_nil hne
  | cons r rs =>
    rw [h] at hp hs
    refine ⟨r, by simp, hp.subset (List.mem_cons_self ..), fun b hb => ?_⟩
    rcases List.mem_cons.mp (hp.symm.subset hb) with rfl | hb
    · exact le_refl _
    · exact (List.pairwise_cons.mp hs).1 b hb

theorem fittestFirst_mem (key : α → F) (l : List α) (r : α) (h : fittestFirst key l = .ok r) :
    r ∈ l ∧ ∀ b ∈ l, key b ≤ key r := by
  have hne : l ≠ [] := by
    rintro rfl
    simp [fittestFirst, fittest, sortedDesc] at h
  obtain ⟨r', h1, h2, h3⟩ := fittestFirst_ok key l hne
  rw [h] at h1; cases h1
  exact ⟨h2, h3⟩

end Sorting

section ES

variable {R Z S F : Type} [LinearOrder F]

/-- `c` is a valid child of `e`. -/
def ESParams.IsChild (P : ESParams R Z S F) (D : Z → Prop) (e c : R) : Prop :=
  ∃ z, D z ∧ P.child e z = .ok c ∧ P.valid c = true

/-- The selection returns one of the given rules. -/
def ESParams.SelectsMember (P : ESParams R Z S F) : Prop := ∀ l s r, P.select l s = .ok r → r ∈ l

theorem esGen_valid_child (P : ESParams R Z S F) (D : Z → Prop) (zs : List Z) (hz : ∀ z ∈ zs, D z) (e : R) (cs : List R)
    (h : zs.mapM (P.child e) = .ok cs) : ∀ c ∈ cs.filter P.valid, P.IsChild D e c := by
  intro c hc
  obtain ⟨h1, h2⟩ := List.mem_filter.mp hc
  obtain ⟨z, hz1, hz2⟩ := mem_of_mapM_ok _ _ _ h c h1
  exact ⟨z, hz z hz1, hz2, h2⟩

/-- Inversion of one generation that continues. -/
theorem esGen_next (P : ESParams R Z S F) (hsel : P.SelectsMember) (D : Z → Prop) (zs : List Z) (hz : ∀ z ∈ zs, D z) (s : S)
    (e e' : R) (w w' : List R) (h : esGen P zs s e w = .ok (.next e' w')) :
    w' = dequeAppend P.delay w e ∧ (e' = e ∨ P.IsChild D e e') := by
  unfold esGen at h
  dsimp only at h
  cases hc : zs.mapM (P.child e) with
  | error er => rw [hc] at h; cases h
  | ok cs =>
    rw [hc] at h; dsimp only at h
    have hv := esGen_valid_child P D zs hz e cs hc
    split at h
    · cases h; exact ⟨rfl, Or.inl rfl⟩
    · split at h
      · split at h
        · cases h
        · rename_i new hnew
          cases h
          refine ⟨rfl, ?_⟩
          rcases List.mem_append.mp (hsel _ _ _ hnew) with h1 | h1
          · exact Or.inr (hv _ h1)
          · exact Or.inl (List.mem_singleton.mp h1)
      · split at h
        · cases h
        · rename_i new hnew
          cases h
          exact ⟨rfl, Or.inr (hv _ (hsel _ _ _ hnew))⟩
      · split at h
        · cases h
        · rename_i new hnew
          split at h
          · split at h
            · cases h
            · rename_i e0 rest hw
              split at h
              · cases h
              · cases h; exact ⟨rfl, Or.inr (hv _ (hsel _ _ _ hnew))⟩
          · cases h; exact ⟨rfl, Or.inr (hv _ (hsel _ _ _ hnew))⟩
      · cases h; exact ⟨rfl, Or.inl rfl⟩

/-- Inversion of a generation that stops: only for `&`, and the returned rule is the oldest of a full window in which nothing is fitter. -/
theorem esGen_stop (P : ESParams R Z S F) (zs : List Z) (s : S) (e r : R) (w : List R) (h : esGen P zs s e w = .ok (.stop r)) :
    P.operator = .amp ∧ (dequeAppend P.delay w e).length = P.delay ∧ (dequeAppend P.delay w e).head? = some r ∧
      ∀ a ∈ dequeAppend P.delay w e, P.fitness a ≤ P.fitness r := by
  unfold esGen at h
  dsimp only at h
  cases hc : zs.mapM (P.child e) with
  | error er => rw [hc] at h; cases h
  | ok cs =>
    rw [hc] at h; dsimp only at h
    split at h
    · cases h
    · split at h
      · split at h <;> cases h
      · split at h <;> cases h
      · rename_i hop
        split at h
        · cases h
        · split at h
          · rename_i hlen
            split at h
            · cases h
            · rename_i e0 rest hw
              split at h
              · rename_i hall
                cases h
                refine ⟨hop, hlen, by rw [hw]; rfl, ?_⟩
                simpa [List.all_eq_true] using hall
              · cases h
          · cases h
      · cases h

theorem mem_dequeAppend (n : Nat) (w : List R) (e a : R) (h : a ∈ dequeAppend n w e) : a ∈ w ∨ a = e := by
  have := List.mem_of_mem_drop h
  simpa using this

/-- Everything preserved from a rule to its valid children holds for the result. -/
theorem esLoop_inv (P : ESParams R Z S F) (hsel : P.SelectsMember) (D : Z → Prop) (Q : R → Prop)
    (hQ : ∀ e c, Q e → P.IsChild D e c → Q c) (gs : List (List Z × S)) (hD : ∀ g ∈ gs, ∀ z ∈ g.1, D z)
    (e : R) (w : List R) (he : Q e) (hw : ∀ a ∈ w, Q a) (r : R) (h : esLoop P gs e w = .ok r) : Q r := by
  induction gs generalizing e w with
  | nil => cases h; exact he
  | cons g gs ih =>
    obtain ⟨zs, s⟩ := g
    unfold esLoop at h
    have hz := hD (zs, s) (List.mem_cons_self ..)
    have hwe : ∀ a ∈ dequeAppend P.delay w e, Q a := fun a ha => by
      rcases mem_dequeAppend _ _ _ _ ha with h1 | rfl
      · exact hw a h1
      · exact he
    split at h
    · cases h
    · rename_i r' hg
      cases h
      obtain ⟨_, _, hh, _⟩ := esGen_stop P zs s e _ w hg
      exact hwe _ (List.mem_of_mem_head? hh)
    · rename_i e' w' hg
      obtain ⟨rfl, he'⟩ := esGen_next P hsel D zs hz s e e' w w' hg
      refine ih (fun g hg => hD g (List.mem_cons_of_mem _ hg)) e' _ ?_ hwe h
      rcases he' with rfl | hc
      · exact he
      · exact hQ e e' he hc

theorem dequeAppend_suffix (n : Nat) (h : List R) (e : R) :
    dequeAppend n (h.drop (h.length - n)) e = (h ++ [e]).drop ((h ++ [e]).length - n) := by
  unfold dequeAppend
  have h1 : h.drop (h.length - n) ++ [e] = (h ++ [e]).drop (h.length - n) := by
    rw [List.drop_append_of_le_length (by omega)]
  rw [h1, List.drop_drop]
  congr 1
  simp only [List.length_drop, List.length_append, List.length_singleton]
  omega

/-- A run succeeds if children can always be made, selections from non-empty lists succeed, and the delay is positive for `&`. -/
theorem esLoop_total (P : ESParams R Z S F) (hsel : P.SelectsMember) (D : Z → Prop) (Q : R → Prop)
    (hchild : ∀ e z, Q e → D z → ∃ c, P.child e z = .ok c)
    (hselok : ∀ l s, l ≠ [] → ∃ r, P.select l s = .ok r) (hd : P.operator = .amp → 1 ≤ P.delay)
    (hQ : ∀ e c, Q e → P.IsChild D e c → Q c) (gs : List (List Z × S)) (hD : ∀ g ∈ gs, ∀ z ∈ g.1, D z)
    (e : R) (w : List R) (he : Q e) : ∃ r, esLoop P gs e w = .ok r := by
  induction gs generalizing e w with
  | nil => exact ⟨e, rfl⟩
  | cons g gs ih =>
    obtain ⟨zs, s⟩ := g
    have hz := hD (zs, s) (List.mem_cons_self ..)
    have hgen : ∃ out, esGen P zs s e w = .ok out := by
      obtain ⟨cs, hcs⟩ := mapM_ok_of_all (P.child e) zs fun z hz' => hchild e z he (hz z hz')
      unfold esGen
      dsimp only
      rw [hcs]
      dsimp only
      split
      · exact ⟨_, rfl⟩
      · rename_i hne
        have hne' : cs.filter P.valid ≠ [] := by simpa using hne
        obtain ⟨r1, hr1⟩ := hselok (cs.filter P.valid ++ [e]) s (by simp)
        obtain ⟨r2, hr2⟩ := hselok (cs.filter P.valid) s hne'
        split
        · rw [hr1]; exact ⟨_, rfl⟩
        · rw [hr2]; exact ⟨_, rfl⟩
        · rename_i hop
          rw [hr2]
          dsimp only
          split
          · rename_i hlen
            split
            · rename_i hnil
              rw [hnil] at hlen
              have := hd hop
              simp at hlen; omega
            · split <;> exact ⟨_, rfl⟩
          · exact ⟨_, rfl⟩
        · exact ⟨_, rfl⟩
    obtain ⟨out, hout⟩ := hgen
    unfold esLoop
    rw [hout]
    cases out with
    | stop r => exact ⟨r, rfl⟩
    | next e' w' =>
      obtain ⟨rfl, he'⟩ := esGen_next P hsel D zs hz s e e' w w' hout
      refine ih (fun g hg => hD g (List.mem_cons_of_mem _ hg)) e' _ ?_
      rcases he' with rfl | hc
      · exact he
      · exact hQ e e' he hc

end ES

end Suprb
