import Verif.Model.Heap
import Verif.Lemmas.ES
import Mathlib.Data.List.Forall2

/-!
# Lemmas about `max`, evaluation, padding, crossover and mutation
-/

set_option autoImplicit false
set_option linter.unusedSectionVars false

namespace Suprb

theorem mapM_ok_iff {α β : Type} (f : α → Except PyErr β) (l : List α) (l' : List β) :
    l.mapM f = .ok l' ↔ List.Forall₂ (fun a b => f a = .ok b) l l' := by
  induction l generalizing l' with
  | nil =>
    constructor
    · intro h; cases h; exact .nil
    · intro h; cases h; rfl
  | cons a as ih =>
    rw [List.mapM_cons]
    constructor
    · intro h
      cases ha : f a with
      | error e => rw [ha] at h; cases h
      | ok b =>
        rw [ha] at h
        cases has : as.mapM f with
        | error e => rw [has] at h; cases h
        | ok bs => rw [has] at h; cases h; exact .cons ha ((ih _).mp has)
    · intro h
      cases h with
      | cons h1 h2 => rw [h1, (ih _).mpr h2]; rfl

theorem mapM_congr {α β : Type} (f g : α → Except PyErr β) (l : List α) (h : ∀ a ∈ l, f a = g a) : l.mapM f = l.mapM g := by
  induction l with
  | nil => rfl
  | cons a as ih =>
    rw [List.mapM_cons, List.mapM_cons, h a (List.mem_cons_self ..), ih fun b hb => h b (List.mem_cons_of_mem _ hb)]

theorem mapM_length {α β : Type} (f : α → Except PyErr β) (l : List α) (l' : List β) (h : l.mapM f = .ok l') :
    l'.length = l.length := ((mapM_ok_iff f l l').mp h).length_eq.symm

theorem mem_of_mapM_ok' {α β : Type} (f : α → Except PyErr β) (l : List α) (l' : List β) (h : l.mapM f = .ok l') :
    ∀ a ∈ l, ∃ b ∈ l', f a = .ok b := by
  replace h := (mapM_ok_iff f l l').mp h
  induction h with
  | nil => simp
  | cons h1 _ ih =>
    intro c hc
    rcases List.mem_cons.mp hc with rfl | hc
    · exact ⟨_, List.mem_cons_self .., h1⟩
    · obtain ⟨b, hb, hb'⟩ := ih c hc
      exact ⟨b, List.mem_cons_of_mem _ hb, hb'⟩

section PyMax

variable {α F : Type} [LinearOrder F]

theorem foldl_max (key : α → F) (as : List α) (a : α) :
    let b := as.foldl (fun best x => if key best < key x then x else best) a
    (b = a ∨ b ∈ as) ∧ key a ≤ key b ∧ ∀ x ∈ as, key x ≤ key b := by
  induction as generalizing a with
  | nil => simp
  | cons c cs ih =>
    simp only [List.foldl_cons]
    split
    · rename_i h
      obtain ⟨h1, h2, h3⟩ := ih c
      refine ⟨?_, le_trans h.le h2, ?_⟩
      · rcases h1 with h1 | h1
        · right; rw [h1]; exact List.mem_cons_self ..
        · right; exact List.mem_cons_of_mem _ h1
      · intro x hx
        rcases List.mem_cons.mp hx with rfl | hx
        · exact h2
        · exact h3 x hx
    · rename_i h
      obtain ⟨h1, h2, h3⟩ := ih a
      refine ⟨?_, h2, ?_⟩
      · rcases h1 with h1 | h1
        · left; exact h1
        · right; exact List.mem_cons_of_mem _ h1
      · intro x hx
        rcases List.mem_cons.mp hx with rfl | hx
        · exact le_trans (not_lt.mp h) h2
        · exact h3 x hx

theorem pyMax_spec (key : α → F) (l : List α) (b : α) (h : pyMax key l = some b) : b ∈ l ∧ ∀ x ∈ l, key x ≤ key b := by
  cases l with
  | nil => cases h
  | cons a as =>
    simp only [pyMax, Option.some.injEq] at h
    obtain ⟨h1, h2, h3⟩ := foldl_max key as a
    simp only [h] at h1 h2 h3
    refine ⟨?_, ?_⟩
    · rcases h1 with rfl | h1
      · exact List.mem_cons_self ..
      · exact List.mem_cons_of_mem _ h1
    · intro x hx
      rcases List.mem_cons.mp hx with rfl | hx
      · exact h2
      · exact h3 x hx

theorem pyMax_some (key : α → F) (l : List α) (h : l ≠ []) : ∃ b, pyMax key l = some b := by
  cases l with
  | nil => exact absurd rfl h
  | cons a as => exact ⟨_, rfl⟩

end PyMax

variable {K : Type} [Field K] [LinearOrder K]

theorem allFitted_iff (pop : List (Indiv K)) : allFitted pop = true ↔ ∀ σ ∈ pop, ∃ s, σ.st = some s := by
  simp [allFitted, List.all_eq_true, Option.isSome_iff_exists]

theorem fittestIndiv_spec (pop : List (Indiv K)) (b : Indiv K) (h : fittestIndiv pop = .ok b) :
    b ∈ pop ∧ (∀ σ ∈ pop, σ.fitnessD ≤ b.fitnessD) ∧ ∀ σ ∈ pop, ∃ s, σ.st = some s := by
  unfold fittestIndiv at h
  split at h
  · rename_i hf
    split at h
    · cases h
    · rename_i b' hb
      cases h
      exact ⟨(pyMax_spec _ _ _ hb).1, (pyMax_spec _ _ _ hb).2, (allFitted_iff pop).mp hf⟩
  · cases h

theorem fittestIndiv_ok (pop : List (Indiv K)) (hne : pop ≠ []) (hf : ∀ σ ∈ pop, ∃ s, σ.st = some s) :
    ∃ b, fittestIndiv pop = .ok b := by
  obtain ⟨b, hb⟩ := pyMax_some Indiv.fitnessD pop hne
  refine ⟨b, ?_⟩
  unfold fittestIndiv
  rw [if_pos ((allFitted_iff pop).mpr hf), hb]

/-- The stored attributes are those a fresh evaluation gives. -/
def Evaluated (ev : Eval K) (σ : Indiv K) : Prop := ∃ s, σ.st = some s ∧ ev σ.genome = .ok s

theorem Indiv.fit_ok (ev : Eval K) (σ τ : Indiv K) (h : σ.fit ev = .ok τ) : τ.genome = σ.genome ∧ Evaluated ev τ := by
  unfold Indiv.fit at h
  split at h
  · cases h
  · rename_i s hs
    cases h
    exact ⟨rfl, s, rfl, hs⟩

theorem Indiv.fit_of_evaluated (ev : Eval K) (σ : Indiv K) (h : Evaluated ev σ) : σ.fit ev = .ok σ := by
  obtain ⟨s, h1, h2⟩ := h
  unfold Indiv.fit
  rw [h2]
  cases σ; simp_all

theorem fitAll_spec (ev : Eval K) (pop pop' : List (Indiv K)) (h : fitAll ev pop = .ok pop') :
    pop'.map Indiv.genome = pop.map Indiv.genome ∧ ∀ σ ∈ pop', Evaluated ev σ := by
  replace h := (mapM_ok_iff _ _ _).mp h
  induction h with
  | nil => simp
  | cons h1 _ ih =>
    obtain ⟨g, e⟩ := Indiv.fit_ok _ _ _ h1
    refine ⟨by simp [g, ih.1], ?_⟩
    intro σ hσ
    rcases List.mem_cons.mp hσ with rfl | hσ
    · exact e
    · exact ih.2 σ hσ

theorem fitAll_of_evaluated (ev : Eval K) (pop : List (Indiv K)) (h : ∀ σ ∈ pop, Evaluated ev σ) : fitAll ev pop = .ok pop := by
  refine (mapM_ok_iff _ _ _).mpr ?_
  refine List.forall₂_same.mpr fun σ hσ => Indiv.fit_of_evaluated ev σ (h σ hσ)

theorem fitAll_congr (ev ev' : Eval K) (pop : List (Indiv K)) (h : ∀ σ ∈ pop, ev σ.genome = ev' σ.genome) :
    fitAll ev pop = fitAll ev' pop := by
  refine mapM_congr _ _ _ fun σ hσ => ?_
  unfold Indiv.fit
  rw [h σ hσ]

theorem Indiv.clone_spec (σ τ : Indiv K) (h : σ.clone = .ok τ) : τ = σ ∧ ∃ s, σ.st = some s := by
  unfold Indiv.clone at h
  split at h
  · cases h
  · rename_i s hs
    cases h
    refine ⟨?_, s, hs⟩
    cases σ; simp_all

theorem Indiv.clone_ok (σ : Indiv K) (s : SolState K) (h : σ.st = some s) : σ.clone = .ok σ := by
  unfold Indiv.clone
  rw [h]
  cases σ; simp_all

/-- All genomes have `n` bits. -/
def AllLen (n : Nat) (pop : List (Indiv K)) : Prop := ∀ σ ∈ pop, σ.genome.length = n

theorem allLen_of_genomes (n : Nat) (pop pop' : List (Indiv K)) (h : pop'.map Indiv.genome = pop.map Indiv.genome)
    (hl : AllLen n pop) : AllLen n pop' := by
  intro σ hσ
  have : σ.genome ∈ pop'.map Indiv.genome := List.mem_map_of_mem hσ
  rw [h] at this
  obtain ⟨τ, hτ, he⟩ := List.mem_map.mp this
  rw [← he]; exact hl τ hτ

theorem InitOp.length_bits (op : InitOp K) (u : Nat → K) (n : Nat) : (op.bits u n).length = n := by
  cases op <;> simp [InitOp.bits, randomBits]

theorem initPopulation_len (cfg : CompCfg K) (draw : Nat → Nat → K) (n : Nat) (old : Option (List (Indiv K))) (pop : List (Indiv K))
    (h : initPopulation cfg draw n old = .ok pop) : AllLen n pop := by
  have hnew : AllLen n ((List.range cfg.populationSize).map fun k => cfg.init.make (draw k) n) := by
    intro σ hσ
    obtain ⟨k, _, rfl⟩ := List.mem_map.mp hσ
    exact InitOp.length_bits _ _ _
  unfold initPopulation at h
  split at h
  · split at h
    · intro σ hσ
      obtain ⟨⟨τ, k⟩, _, hb⟩ := mem_of_mapM_ok _ _ _ h σ hσ
      dsimp only [InitOp.pad] at hb
      split at hb
      · cases hb
      · rename_i hlt
        cases hb
        simp only [List.length_append, InitOp.length_bits]
        omega
    · cases h; exact hnew
  · cases h; exact hnew

theorem archivePad1_len (n : Nat) (σ τ : Indiv K) (h : archivePad1 n σ = .ok τ) : τ.genome.length = n := by
  unfold archivePad1 at h
  split at h
  · cases h
  · rename_i hlt
    cases h
    simp; omega

theorem archivePad_len (n : Nat) (arch arch' : List (Indiv K)) (h : archivePad n arch = .ok arch') : AllLen n arch' := by
  intro σ hσ
  obtain ⟨τ, _, hb⟩ := mem_of_mapM_ok _ _ _ h σ hσ
  exact archivePad1_len _ _ _ hb

/-- Result of an update of the archive. -/
theorem archiveUpdate_spec (arch pop arch' : List (Indiv K)) (hlen : arch.length ≤ 1) (h : archiveUpdate arch pop = .ok arch') :
    ∃ a, arch' = [a] ∧ (a ∈ arch ∨ a ∈ pop) ∧ (∃ s, a.st = some s) ∧ (∀ σ ∈ pop, σ.fitnessD ≤ a.fitnessD) ∧
      ∀ b ∈ arch, b.fitnessD ≤ a.fitnessD := by
  unfold archiveUpdate at h
  split at h
  · cases h
  · rename_i best hbest
    obtain ⟨hb1, hb2, hb3⟩ := fittestIndiv_spec _ _ hbest
    split at h
    · split at h
      · cases h
      · rename_i b hb
        cases h
        obtain ⟨rfl, hs⟩ := Indiv.clone_spec _ _ hb
        exact ⟨_, rfl, .inr hb1, hs, hb2, by simp⟩
    · rename_i a rest
      have hrest : rest = [] := by
        cases rest with
        | nil => rfl
        | cons x xs => simp at hlen
      subst hrest
      split at h
      · cases h
      · rename_i s hs
        have hfd : a.fitnessD = s.fitness := by simp [Indiv.fitnessD, hs]
        split at h
        · rename_i hlt
          split at h
          · cases h
          · rename_i b hb
            cases h
            obtain ⟨rfl, hs'⟩ := Indiv.clone_spec _ _ hb
            refine ⟨_, rfl, .inr hb1, hs', hb2, ?_⟩
            intro c hc
            rw [List.mem_singleton] at hc
            subst hc
            rw [hfd]; exact hlt.le
        · rename_i hge
          cases h
          refine ⟨a, rfl, .inl (List.mem_cons_self ..), ⟨s, hs⟩, ?_, ?_⟩
          · intro σ hσ
            rw [hfd]
            exact le_trans (hb2 σ hσ) (not_lt.mp hge)
          · intro c hc
            rw [List.mem_singleton] at hc
            rw [hc]

/-! ## Crossover and mutation on genomes -/

theorem length_singlePoint (a b : List Bool) (i : Nat) (h : a.length = b.length) : (singlePoint a b i).length = a.length := by
  simp only [singlePoint, List.length_append, List.length_take, List.length_drop]; omega

theorem singlePoint_get (a b : List Bool) (i j : Nat) (h : a.length = b.length) :
    (singlePoint a b i)[j]? = if j < i then a[j]? else b[j]? := by
  unfold singlePoint
  split
  · rename_i hj
    by_cases hja : j < a.length
    · rw [List.getElem?_append_left (by simp; omega), List.getElem?_take, if_pos hj]
    · rw [List.getElem?_eq_none (by simp; omega), List.getElem?_eq_none (by omega)]
  · rename_i hj
    by_cases hia : i ≤ a.length
    · rw [List.getElem?_append_right (by simp; omega)]
      simp only [List.length_take, List.getElem?_drop]
      congr 1; omega
    · rw [List.getElem?_eq_none (by simp; omega), List.getElem?_eq_none (by omega)]

/-- The second genome is unchanged by one round of the crossover loop. -/
theorem nPoint_round (a b : List Bool) (i : Nat) (h : a.length = b.length) : singlePoint b (singlePoint a b i) i = b := by
  refine List.ext_getElem? fun j => ?_
  rw [singlePoint_get _ _ _ _ (by rw [length_singlePoint _ _ _ h]; exact h.symm), singlePoint_get _ _ _ _ h]
  split <;> simp_all

theorem nPoint_get (is : List Nat) (A B : Indiv K) (h : A.genome.length = B.genome.length) :
    (nPoint is A B).genome.length = A.genome.length ∧
    ∀ j : Nat, (nPoint is A B).genome[j]? = if ∃ i ∈ is, i ≤ j then B.genome[j]? else A.genome[j]? := by
  induction is generalizing A B with
  | nil => simp [nPoint]
  | cons i is ih =>
    have hl := length_singlePoint A.genome B.genome i h
    have hB : singlePoint B.genome (singlePoint A.genome B.genome i) i = B.genome := nPoint_round _ _ i h
    obtain ⟨h1, h2⟩ := ih (A.withGenome (singlePoint A.genome B.genome i)) (B.withGenome B.genome)
      (by simp only [Indiv.withGenome, hl]; exact h)
    unfold nPoint
    simp only [Indiv.withGenome, hB] at h1 h2 ⊢
    refine ⟨by rw [h1, hl], fun j => ?_⟩
    rw [h2, singlePoint_get _ _ _ _ h]
    by_cases h1 : ∃ k ∈ is, k ≤ j
    · rw [if_pos h1, if_pos]
      obtain ⟨k, hk, hk'⟩ := h1
      exact ⟨k, List.mem_cons_of_mem _ hk, hk'⟩
    · rw [if_neg h1]
      by_cases hj : j < i
      · rw [if_pos hj, if_neg]
        rintro ⟨k, hk, hk'⟩
        rcases List.mem_cons.mp hk with rfl | hk
        · omega
        · exact h1 ⟨k, hk, hk'⟩
      · rw [if_neg hj, if_pos ⟨i, List.mem_cons_self .., by omega⟩]

theorem uniformCross_get (u : Nat → K) (a b g : List Bool) (h : uniformCross u a b = .ok g) :
    g.length = a.length ∧ b.length = a.length ∧ ∀ j : Nat, g[j]? = if u j ≤ 1 / 2 then a[j]? else b[j]? := by
  unfold uniformCross at h
  split at h
  · cases h
  · rename_i hlen
    have hlen : b.length = a.length := not_not.mp hlen
    cases h
    refine ⟨by simp [hlen], hlen, fun j => ?_⟩
    rw [List.getElem?_mapIdx]
    by_cases hj : j < a.length
    · have hjb : j < b.length := by omega
      rw [List.getElem?_eq_getElem (by simp; omega), List.getElem?_eq_getElem hj, List.getElem?_eq_getElem hjb]
      simp only [List.getElem_zip, Option.map_some]
      split <;> rfl
    · rw [List.getElem?_eq_none (by simp; omega), List.getElem?_eq_none (by omega), List.getElem?_eq_none (by omega)]
      simp

theorem crossover_len (rate r : K) (c : CrossDraw K) (A B C : Indiv K) (n : Nat) (hA : A.genome.length = n)
    (hB : B.genome.length = n) (h : crossover rate r c A B = .ok C) : C.genome.length = n := by
  unfold crossover at h
  split at h
  · split at h
    · cases h
      rw [(nPoint_get _ _ _ (by omega)).1, hA]
    · split at h
      · cases h
      · rename_i g hg
        cases h
        simp only [Indiv.withGenome]
        rw [(uniformCross_get _ _ _ _ hg).1, hA]
  · cases h; exact hA

theorem crossover_ok (rate r : K) (c : CrossDraw K) (A B : Indiv K) (h : A.genome.length = B.genome.length) :
    ∃ C, crossover rate r c A B = .ok C := by
  unfold crossover
  split
  · split
    · exact ⟨_, rfl⟩
    · unfold uniformCross
      rw [if_neg (by simp [h])]
      exact ⟨_, rfl⟩
  · exact ⟨_, rfl⟩

theorem mem_pairs {α : Type} (l : List α) : ∀ p ∈ pairs l, p.1 ∈ l ∧ p.2 ∈ l := by
  fun_induction pairs l with
  | case1 a b rest ih =>
    intro p hp
    rcases List.mem_cons.mp hp with rfl | hp
    · simp
    · obtain ⟨h1, h2⟩ := ih p hp
      exact ⟨List.mem_cons_of_mem _ (List.mem_cons_of_mem _ h1), List.mem_cons_of_mem _ (List.mem_cons_of_mem _ h2)⟩
  | case2 l h => simp

theorem length_pairs {α : Type} (l : List α) : (pairs l).length = l.length / 2 := by
  fun_induction pairs l with
  | case1 a b rest ih => simp only [List.length_cons, ih]; omega
  | case2 l h =>
    match l, h with
    | [], _ => simp
    | [x], _ => simp
    | x :: y :: t, h => exact absurd rfl (h x y t)

theorem mem_choose (pop : List (Indiv K)) (idx : List Nat) : ∀ σ ∈ choose pop idx, σ ∈ pop := by
  intro σ hσ
  obtain ⟨i, _, hi⟩ := List.mem_filterMap.mp hσ
  exact List.mem_of_getElem? hi

theorem mem_selectRandom (pop : List (Indiv K)) (idx : List Nat) (l : List (Indiv K)) (h : selectRandom pop idx = .ok l) :
    ∀ σ ∈ l, σ ∈ pop := by
  unfold selectRandom at h
  split at h
  · cases h
  · cases h; exact mem_choose pop idx

theorem mem_select (s : SelDraw) (pop l : List (Indiv K)) (h : s.run pop = .ok l) : ∀ σ ∈ l, σ ∈ pop := by
  cases s with
  | random idx => exact mem_selectRandom pop idx l h
  | roulette idx =>
    simp only [SelDraw.run, selectRoulette] at h
    split at h
    · cases h
    · exact mem_selectRandom pop idx l h
    · split at h
      · cases h
      · exact mem_selectRandom pop idx l h
  | linearRank idx =>
    simp only [SelDraw.run, selectLinearRank] at h
    split at h
    · exact mem_selectRandom pop idx l h
    · cases h
  | tournament idx =>
    intro σ hσ
    obtain ⟨js, _, hj⟩ := mem_of_mapM_ok _ _ _ h σ hσ
    split at hj
    · cases hj
    · rename_i comp hc
      exact mem_selectRandom pop js comp hc σ (fittestIndiv_spec _ _ hj).1

theorem gaCross_len (rate : K) (draw : Nat → Bool → K × CrossDraw K) (ps : List (Indiv K × Indiv K)) (cs : List (Indiv K)) (n : Nat)
    (hps : ∀ p ∈ ps, p.1.genome.length = n ∧ p.2.genome.length = n) (h : gaCross rate draw ps = .ok cs) :
    AllLen n cs ∧ cs.length = 2 * ps.length := by
  unfold gaCross at h
  obtain ⟨two, h1, h2⟩ : ∃ two, (ps.zipIdx).mapM (fun ((A, B), k) => (do
    let c1 ← crossover rate (draw k true).1 (draw k true).2 A B
    let c2 ← crossover rate (draw k false).1 (draw k false).2 B A
    pure [c1, c2] : Except PyErr (List (Indiv K)))) = .ok two ∧ cs = two.flatten := by
    cases hh : (ps.zipIdx).mapM (fun ((A, B), k) => (do
      let c1 ← crossover rate (draw k true).1 (draw k true).2 A B
      let c2 ← crossover rate (draw k false).1 (draw k false).2 B A
      pure [c1, c2] : Except PyErr (List (Indiv K)))) with
    | error e => rw [hh] at h; cases h
    | ok two => rw [hh] at h; cases h; exact ⟨two, rfl, rfl⟩
  have hpair : ∀ l ∈ two, AllLen n l ∧ l.length = 2 := by
    intro l hl
    obtain ⟨⟨⟨A, B⟩, k⟩, hmem, hb⟩ := mem_of_mapM_ok _ _ _ h1 l hl
    have hAB := hps (A, B) (by
      have := List.mem_zipIdx hmem
      obtain ⟨_, _, h3⟩ := this
      rw [h3]; exact List.getElem_mem _)
    cases hc1 : crossover rate (draw k true).1 (draw k true).2 A B with
    | error e => dsimp only at hb; rw [hc1] at hb; cases hb
    | ok c1 =>
      cases hc2 : crossover rate (draw k false).1 (draw k false).2 B A with
      | error e => dsimp only at hb; rw [hc1, hc2] at hb; cases hb
      | ok c2 =>
        dsimp only at hb; rw [hc1, hc2] at hb; cases hb
        refine ⟨?_, rfl⟩
        intro σ hσ
        simp only [List.mem_cons, List.not_mem_nil, or_false] at hσ
        rcases hσ with rfl | rfl
        · exact crossover_len _ _ _ _ _ _ _ hAB.1 hAB.2 hc1
        · exact crossover_len _ _ _ _ _ _ _ hAB.2 hAB.1 hc2
  subst h2
  refine ⟨?_, ?_⟩
  · intro σ hσ
    obtain ⟨l, hl, hσ⟩ := List.mem_flatten.mp hσ
    exact (hpair l hl).1 σ hσ
  · have hl := mapM_length _ _ _ h1
    rw [List.length_zipIdx] at hl
    rw [← hl]
    clear h1 hl h hps
    induction two with
    | nil => rfl
    | cons l ls ih =>
      rw [List.flatten_cons, List.length_append, ih fun m hm => hpair m (List.mem_cons_of_mem _ hm),
        (hpair l (List.mem_cons_self ..)).2, List.length_cons]
      omega

theorem gaOdd_spec (size : Nat) (parents children out : List (Indiv K)) (n : Nat) (hp : AllLen n parents) (hc : AllLen n children)
    (h : gaOdd size parents children = .ok out) : AllLen n out ∧ out.length = children.length + size % 2 := by
  unfold gaOdd at h
  split at h
  · rename_i hodd
    split at h
    · cases h
    · rename_i p hp'
      cases h
      refine ⟨?_, by simp; omega⟩
      intro σ hσ
      rcases List.mem_append.mp hσ with hσ | hσ
      · exact hc σ hσ
      · rw [List.mem_singleton] at hσ
        subst hσ
        exact hp _ (List.mem_of_getLast? hp')
  · cases h
    exact ⟨hc, by omega⟩

theorem length_bitFlips (rate : K) (u : Nat → K) (σ : Indiv K) : (bitFlips rate u σ).genome.length = σ.genome.length := by
  simp [bitFlips, Indiv.withGenome]

theorem gaMutate_spec (rate : K) (flips : Nat → Nat → K) (cs : List (Indiv K)) (n : Nat) (hc : AllLen n cs) :
    AllLen n (gaMutate rate flips cs) ∧ (gaMutate rate flips cs).length = cs.length := by
  refine ⟨?_, by simp [gaMutate]⟩
  intro σ hσ
  obtain ⟨⟨c, k⟩, hmem, rfl⟩ := List.mem_map.mp hσ
  dsimp only
  rw [length_bitFlips]
  obtain ⟨_, _, h3⟩ := List.mem_zipIdx hmem
  rw [h3]
  exact hc _ (List.getElem_mem _)

/-- Anatomy of a successful generation. -/
theorem gaStep_spec (cfg : GACfg K) (dr : GADraw K) (ev : Eval K) (pop pop' : List (Indiv K)) (h : gaStep cfg dr ev pop = .ok pop') :
    (∀ σ ∈ pop, ∃ s, σ.st = some s) ∧ ∃ parents children children',
      dr.sel.run pop = .ok parents ∧ gaCross cfg.crossRate dr.cross (pairs parents) = .ok children ∧
      gaOdd cfg.populationSize parents children = .ok children' ∧
      fitAll ev ((sortedDesc Indiv.fitnessD pop).take cfg.nElitists ++ gaMutate cfg.mutRate dr.flips children') = .ok pop' := by
  unfold gaStep at h
  split at h
  · rename_i hf
    refine ⟨(allFitted_iff pop).mp hf, ?_⟩
    cases h1 : dr.sel.run pop with
    | error e => rw [h1] at h; cases h
    | ok parents =>
      cases h2 : gaCross cfg.crossRate dr.cross (pairs parents) with
      | error e => simp only [h1] at h; dsimp [bind, Except.bind] at h; rw [h2] at h; cases h
      | ok children =>
        cases h3 : gaOdd cfg.populationSize parents children with
        | error e => simp only [h1] at h; dsimp [bind, Except.bind] at h; rw [h2] at h; dsimp only at h; rw [h3] at h; cases h
        | ok children' =>
          simp only [h1] at h; dsimp [bind, Except.bind] at h; rw [h2] at h; dsimp only at h; rw [h3] at h
          exact ⟨parents, children, children', rfl, h2, h3, h⟩
  · cases h

theorem mem_sortedDesc_take {α : Type} (key : α → K) (k : Nat) (l : List α) : ∀ a ∈ (sortedDesc key l).take k, a ∈ l :=
  fun _ ha => (sortedDesc_perm key l).subset (List.mem_of_mem_take ha)

/-- What every generation preserves. -/
theorem gaStep_inv (cfg : GACfg K) (dr : GADraw K) (ev : Eval K) (pop pop' : List (Indiv K)) (n : Nat) (hl : AllLen n pop)
    (h : gaStep cfg dr ev pop = .ok pop') : AllLen n pop' ∧ ∀ σ ∈ pop', Evaluated ev σ := by
  obtain ⟨_, parents, children, children', h1, h2, h3, h4⟩ := gaStep_spec _ _ _ _ _ h
  obtain ⟨hg, he⟩ := fitAll_spec _ _ _ h4
  refine ⟨allLen_of_genomes n _ _ hg ?_, he⟩
  have hpar : AllLen n parents := fun σ hσ => hl σ (mem_select _ _ _ h1 σ hσ)
  have hch := (gaCross_len _ _ _ _ n (fun p hp => ⟨hpar _ (mem_pairs _ p hp).1, hpar _ (mem_pairs _ p hp).2⟩) h2).1
  have hch' := (gaOdd_spec _ _ _ _ n hpar hch h3).1
  intro σ hσ
  rcases List.mem_append.mp hσ with hσ | hσ
  · exact hl σ (mem_sortedDesc_take _ _ _ σ hσ)
  · exact (gaMutate_spec _ _ _ n hch').1 σ hσ

theorem gaLoop_inv (cfg : GACfg K) (ev : Eval K) (draws : List (GADraw K)) (pop pop' : List (Indiv K)) (n : Nat) (hl : AllLen n pop)
    (he : ∀ σ ∈ pop, Evaluated ev σ) (h : gaLoop cfg ev draws pop = .ok pop') : AllLen n pop' ∧ ∀ σ ∈ pop', Evaluated ev σ := by
  induction draws generalizing pop with
  | nil => cases h; exact ⟨hl, he⟩
  | cons dr rest ih =>
    unfold gaLoop at h
    split at h
    · cases h
    · rename_i p hp
      obtain ⟨h1, h2⟩ := gaStep_inv _ _ _ _ _ n hl hp
      exact ih p h1 h2 h

end Suprb
