import Verif.Lemmas.OrderOnly
import Verif.Model.Sas
import Verif.Props.FitnessOrder

/-!
# The genetic algorithm with ageing only compares fitness values

The median of an even number of values is calculated, but comparing one of the values with it is the same as comparing it with the smaller of the two middle values.
-/

set_option autoImplicit false
set_option linter.unusedSectionVars false

namespace Suprb

open Suprb.Spec (resolved)

variable {K : Type} [Field K] [LinearOrder K] [IsStrictOrderedRing K]

theorem getD_of_lt {α : Type} (l : List α) (z : α) (i : Nat) (h : i < l.length) : l.getD i z = l[i] := by
  rw [List.getD_eq_getElem?_getD, List.getElem?_eq_getElem h, Option.getD_some]

/-- A value of the list is above the median if it is above the lower of the two middle values. -/
theorem npMedian_lt_iff (l : List K) (x : K) (hx : x ∈ l) : npMedian l < x ↔ (sortedAsc id l).getD ((l.length - 1) / 2) 0 < x := by
  have hperm : (sortedAsc id l).Perm l := List.perm_insertionSort _ _
  have hsort : (sortedAsc id l).Pairwise (· ≤ ·) := List.pairwise_insertionSort (fun a b : K => a ≤ b) _
  have hlen := hperm.length_eq
  have hpos := List.length_pos_of_mem hx
  unfold npMedian
  dsimp only
  by_cases ho : l.length % 2 = 1
  · rw [if_pos ho, show l.length / 2 = (l.length - 1) / 2 by omega]
  · rw [if_neg ho, show l.length / 2 - 1 = (l.length - 1) / 2 by omega]
    obtain ⟨i, hi, hix⟩ := List.mem_iff_getElem.mp (hperm.mem_iff.mpr hx)
    have hle : ∀ a b : Nat, a ≤ b → (hb : b < (sortedAsc id l).length) → (sortedAsc id l).getD a 0 ≤ (sortedAsc id l).getD b 0 := by
      intro a b hab hb
      rw [getD_of_lt _ _ _ (by omega), getD_of_lt _ _ _ hb]
      rcases Nat.lt_or_eq_of_le hab with h | h
      · exact List.pairwise_iff_getElem.mp hsort a b (by omega) hb h
      · subst h; exact le_refl _
    have hxi : (sortedAsc id l).getD i 0 = x := by rw [getD_of_lt _ _ _ hi]; exact hix
    have h1 := hle ((l.length - 1) / 2) (l.length / 2) (by omega) (by omega)
    constructor
    · intro h
      linarith
    · intro h
      have h2 : l.length / 2 ≤ i := by
        by_contra hc
        have := hle i ((l.length - 1) / 2) (by omega) (by omega)
        rw [hxi] at this
        linarith
      have h3 := hle (l.length / 2) i h2 hi
      rw [hxi] at h3
      linarith

theorem npMedian_map_lt {h : K → K} (hm : StrictMono h) (l : List K) (x : K) (hx : x ∈ l) : npMedian (l.map h) < h x ↔ npMedian l < x := by
  have hs : sortedAsc id (l.map h) = (sortedAsc id l).map h := by
    unfold sortedAsc
    exact (List.map_insertionSort (r := fun a b : K => id a ≤ id b) (s := fun a b : K => id a ≤ id b) h l fun a _ b _ => (hm.le_iff_le).symm).symm
  have hlen : (sortedAsc id l).length = l.length := (List.perm_insertionSort _ _).length_eq
  have hpos := List.length_pos_of_mem hx
  rw [npMedian_lt_iff l x hx, npMedian_lt_iff (l.map h) (h x) (List.mem_map_of_mem hx), hs, List.length_map, getD_of_lt _ _ _ (by rw [List.length_map]; omega),
    getD_of_lt _ _ _ (by omega), List.getElem_map, hm.lt_iff_lt]

/-- The same solution with an age and other attributes. -/
def Aged.mapSt (φ : SolState K → SolState K) (o : Aged K) : Aged K := { o with indiv := o.indiv.mapSt φ }

theorem crossoverA_mapSt (φ : SolState K → SolState K) (rate r : K) (c : CrossDraw K) (A B : Indiv K) :
    crossoverA rate r c (A.mapSt φ) (B.mapSt φ) = (crossoverA rate r c A B).map (Indiv.mapSt φ) := by
  unfold crossoverA
  by_cases h : r < rate
  · rw [if_pos h, if_pos h]
    unfold crossApply
    cases c with
    | nPoint idx => dsimp only; rw [nPointA_mapSt]; rfl
    | uniform u =>
      dsimp only
      rw [show (A.mapSt φ).genome = A.genome from rfl, show (B.mapSt φ).genome = B.genome from rfl]
      cases uniformCross u A.genome B.genome with
      | error e => rfl
      | ok g => rfl
  · rw [if_neg h, if_neg h]
    rfl

theorem sagaChildren_mapSt (φ : SolState K → SolState K) (f : Nat → Bool → Indiv K → Indiv K → Except PyErr (Indiv K))
    (hf : ∀ k b A B, f k b (A.mapSt φ) (B.mapSt φ) = (f k b A B).map (Indiv.mapSt φ)) (k : Nat) (ps : List (Indiv K × Indiv K)) :
    sagaChildren f k (ps.map fun p => (p.1.mapSt φ, p.2.mapSt φ)) = (sagaChildren f k ps).map (List.map (Indiv.mapSt φ)) := by
  induction ps generalizing k with
  | nil => rfl
  | cons p rest ih =>
    obtain ⟨A, B⟩ := p
    rw [List.map_cons]
    unfold sagaChildren
    dsimp only
    rw [hf]
    cases f k true A B with
    | error e => rfl
    | ok c1 =>
      dsimp only [Except.map]
      rw [hf]
      cases f k false B A with
      | error e => rfl
      | ok c2 =>
        dsimp only [Except.map]
        rw [ih]
        cases sagaChildren f (k + 1) rest with
        | error e => rfl
        | ok cs => rfl

theorem resolved_keeps {hs : K → K} (hms : StrictMono hs) : KeepsOrder (resolved hs) := fun _ _ => hms.lt_iff_lt

theorem fitnessD_resolved (hs : K → K) (σ : Indiv K) (h : σ.st.isSome = true) : (σ.mapSt (resolved hs)).fitnessD = hs σ.fitnessD := by
  obtain ⟨g, st⟩ := σ
  cases st with
  | none => cases h
  | some s => rfl

theorem ageing_mapSt {hs : K → K} (hms : StrictMono hs) (size : Nat) (pop : List (Aged K)) :
    ageing size (pop.map (Aged.mapSt (resolved hs))) = (ageing size pop).map (List.map (Aged.mapSt (resolved hs))) := by
  unfold ageing
  have hind : (pop.map (Aged.mapSt (resolved hs))).map Aged.indiv = (pop.map Aged.indiv).map (Indiv.mapSt (resolved hs)) := by rw [List.map_map, List.map_map]; rfl
  rw [hind, allFitted_mapSt]
  by_cases hfit : allFitted (pop.map Aged.indiv) = true
  · rw [if_pos hfit, if_pos hfit]
    have hall : ∀ o ∈ pop, o.indiv.st.isSome = true := fun o ho => (allFitted_isSome _).mp hfit _ (List.mem_map_of_mem ho)
    have hval : ∀ o ∈ pop, (o.mapSt (resolved hs)).indiv.fitnessD = hs o.indiv.fitnessD := fun o ho => fitnessD_resolved hs o.indiv (hall o ho)
    have hfs : (pop.map (Aged.mapSt (resolved hs))).map (fun o => o.indiv.fitnessD) = (pop.map fun o => o.indiv.fitnessD).map hs := by
      rw [List.map_map, List.map_map]
      exact List.map_congr_left hval
    have hsort : sortedDesc (fun o : Aged K => o.indiv.fitnessD) (pop.map (Aged.mapSt (resolved hs))) =
        (sortedDesc (fun o : Aged K => o.indiv.fitnessD) pop).map (Aged.mapSt (resolved hs)) := by
      unfold sortedDesc
      exact (List.map_insertionSort (r := fun a b : Aged K => b.indiv.fitnessD ≤ a.indiv.fitnessD) (s := fun a b : Aged K => b.indiv.fitnessD ≤ a.indiv.fitnessD) _ pop
        fun a ha b hb => by rw [hval a ha, hval b hb]; exact hms.le_iff_le.symm).symm
    dsimp only
    rw [hfs, hsort, ← List.map_take, List.getLast?_map, List.length_map]
    cases hlast : ((sortedDesc (fun o : Aged K => o.indiv.fitnessD) pop).take (size * 5)).getLast? with
    | none => rfl
    | some last =>
      have hmem : last ∈ pop := (List.perm_insertionSort _ _).mem_iff.mp (List.mem_of_mem_take (List.mem_of_getLast? hlast))
      simp only [Option.map_some, Except.map]
      congr 1
      have hage : ∀ o ∈ pop, newAge pop.length (size * 5) (npMedian ((pop.map fun o => o.indiv.fitnessD).map hs)) (last.mapSt (resolved hs)).indiv.fitnessD
          (o.mapSt (resolved hs)).indiv.fitnessD (o.mapSt (resolved hs)).age =
          newAge pop.length (size * 5) (npMedian (pop.map fun o => o.indiv.fitnessD)) last.indiv.fitnessD o.indiv.fitnessD o.age := by
        intro o ho
        rw [hval o ho, hval last hmem, show (o.mapSt (resolved hs)).age = o.age from rfl]
        unfold newAge
        dsimp only
        simp only [npMedian_map_lt hms _ _ (List.mem_map_of_mem (f := fun o : Aged K => o.indiv.fitnessD) ho), hms.lt_iff_lt]
      generalize npMedian ((pop.map fun o => o.indiv.fitnessD).map hs) = med' at hage ⊢
      generalize npMedian (pop.map fun o => o.indiv.fitnessD) = med at hage ⊢
      have hmap : ∀ l : List (Aged K), (∀ o ∈ l, o ∈ pop) → (l.map (Aged.mapSt (resolved hs))).map (fun o => (⟨o.indiv, newAge pop.length (size * 5) med' (last.mapSt (resolved hs)).indiv.fitnessD o.indiv.fitnessD o.age⟩ : Aged K)) =
          (l.map fun o => (⟨o.indiv, newAge pop.length (size * 5) med last.indiv.fitnessD o.indiv.fitnessD o.age⟩ : Aged K)).map
            (Aged.mapSt (resolved hs)) := by
        intro l hl
        rw [List.map_map, List.map_map]
        refine List.map_congr_left fun o ho => ?_
        simp only [Function.comp_apply]
        rw [hage o (hl o ho)]
        rfl
      rw [hmap pop fun o ho => ho, List.filter_map]
      rfl
  · rw [if_neg hfit, if_neg hfit]
    rfl

/-- The same evaluated solution with an age and other attributes. -/
def AgedTwin (φ : SolState K → SolState K) (o o' : Aged K) : Prop := o' = o.mapSt φ

theorem agedTwins {φ : SolState K → SolState K} {pop pop' : List (Aged K)} (h : List.Forall₂ (AgedTwin φ) pop pop') : pop' = pop.map (Aged.mapSt φ) := by
  induction h with
  | nil => rfl
  | cons h1 _ ih => rw [List.map_cons, ← ih, ← show _ = _ from h1]

theorem aged_evaluate_psim {φ : SolState K → SolState K} {o o' : Aged K} (h : AgedTwin φ o o') : PSim φ (AgedTwin φ) o.evaluate o'.evaluate := by
  rw [show o' = _ from h]
  exact (evaluate_psim (show Twin φ o.indiv (o.mapSt φ).indiv from rfl)).bind fun σ σ' hσ => .ret (by rw [show σ' = _ from hσ.1]; rfl)

theorem sas_psim {hs : K → K} (hms : StrictMono hs) (cfg : SasCfg K) (draws : List (SasDraw K)) (pop : List (Aged K)) :
    PSim (resolved hs) (fun s s' => s' = ⟨s.pop.map (Aged.mapSt (resolved hs)), s.sizes⟩) (sas cfg draws pop) (sas cfg draws (pop.map (Aged.mapSt (resolved hs)))) := by
  unfold sas
  refine PSim.bind (PSim.each (fun _ _ => aged_evaluate_psim) (forall₂_map_right (Aged.mapSt (resolved hs)) pop)) fun a b hab => ?_
  refine PSim.forEach _ (fun dr _ s s' h => ?_) _ _ (by rw [agedTwins hab])
  subst h
  unfold sasStep
  dsimp only
  rw [ageing_mapSt hms, List.length_map]
  refine PSim.bind (PSim.lift (R := fun r r' => r' = r.map (Aged.mapSt (resolved hs))) ?_) fun parents parents' hp => ?_
  · cases ageing cfg.initialSize s.pop with
    | error e => exact .error e
    | ok r => exact .ok _ _ rfl
  · subst hp
    have hind : (parents.map (Aged.mapSt (resolved hs))).map Aged.indiv = (parents.map Aged.indiv).map (Indiv.mapSt (resolved hs)) := by rw [List.map_map, List.map_map]; rfl
    rw [hind, pairs_map (Indiv.mapSt (resolved hs)), sagaChildren_mapSt (resolved hs) (fun k b A B => crossoverA cfg.crossRate (dr.cross k b).1 (dr.cross k b).2 A B) fun k b A B => crossoverA_mapSt _ _ _ _ A B]
    refine PSim.bind (PSim.lift (R := fun r r' => r' = r.map (Indiv.mapSt (resolved hs))) ?_) fun children children' hc => ?_
    · cases sagaChildren (fun k b A B => crossoverA cfg.crossRate (dr.cross k b).1 (dr.cross k b).2 A B) 0 (pairs (parents.map Aged.indiv)) with
      | error e => exact .error e
      | ok r => exact .ok _ _ rfl
    · subst hc
      refine PSim.bind (PSim.each (R := AgedTwin (resolved hs)) (S := AgedTwin (resolved hs)) (fun _ _ => aged_evaluate_psim) ?_) fun _ _ h => .ret (by rw [agedTwins h])
      rw [gaMutate_mapSt, List.map_map]
      have h2 := forall₂_map_map (forall₂_map_right (Indiv.mapSt (resolved hs)) (gaMutate cfg.mutRate dr.flips children)) (S := AgedTwin (resolved hs)) (fun σ => (⟨σ, 3⟩ : Aged K))
        (fun σ => (⟨σ, 3⟩ : Aged K)) fun σ σ' h => by rw [show σ' = _ from h]; rfl
      rw [List.map_map] at h2
      exact forall₂_append (forall₂_map_right _ _) h2

end Suprb
