import Verif.Model.Saga
import Verif.Lemmas.Prog

/-!
# Lemmas about the self-adapting genetic algorithms
-/

set_option autoImplicit false
set_option linter.unusedSectionVars false

namespace Suprb

variable {K : Type} [Field K] [LinearOrder K]

theorem nPointA_len (is : List Nat) (A B : Indiv K) (n : Nat) (hA : A.genome.length = n) (hB : B.genome.length = n) :
    (nPointA is A B).genome.length = n := by
  induction is generalizing A with
  | nil => exact hA
  | cons i rest ih =>
    unfold nPointA
    apply ih
    change (singlePoint A.genome B.genome i).length = n
    rw [length_singlePoint _ _ _ (hA.trans hB.symm), hA]

theorem crossApply_len (c : CrossDraw K) (A B C : Indiv K) (n : Nat) (hA : A.genome.length = n) (hB : B.genome.length = n)
    (h : crossApply c A B = .ok C) : C.genome.length = n := by
  unfold crossApply at h
  cases c with
  | nPoint is => injection h with h; rw [← h]; exact nPointA_len is A B n hA hB
  | uniform u =>
    dsimp only at h
    cases hu : uniformCross u A.genome B.genome with
    | error e => rw [hu] at h; cases h
    | ok g =>
      rw [hu] at h
      injection h with h
      rw [← h]
      exact (uniformCross_get u _ _ g hu).1.trans hA

theorem crossoverA_len (rate r : K) (c : CrossDraw K) (A B C : Indiv K) (n : Nat) (hA : A.genome.length = n) (hB : B.genome.length = n)
    (h : crossoverA rate r c A B = .ok C) : C.genome.length = n := by
  unfold crossoverA at h
  split at h
  · exact crossApply_len c A B C n hA hB h
  · injection h with h; rw [← h]; exact hA

theorem sagaChildren_len (f : Nat → Bool → Indiv K → Indiv K → Except PyErr (Indiv K)) (n : Nat)
    (hf : ∀ k b A B C, A.genome.length = n → B.genome.length = n → f k b A B = .ok C → C.genome.length = n)
    (k : Nat) (ps : List (Indiv K × Indiv K)) (cs : List (Indiv K)) (hp : ∀ p ∈ ps, p.1.genome.length = n ∧ p.2.genome.length = n)
    (h : sagaChildren f k ps = .ok cs) : AllLen n cs := by
  induction ps generalizing k cs with
  | nil => injection h with h; rw [← h]; intro σ hσ; cases hσ
  | cons p rest ih =>
    obtain ⟨A, B⟩ := p
    have hAB := hp (A, B) (List.mem_cons_self ..)
    unfold sagaChildren at h
    cases h1 : f k true A B with
    | error e => rw [h1] at h; cases h
    | ok c1 =>
      cases h2 : f k false B A with
      | error e => rw [h1] at h; dsimp only at h; rw [h2] at h; cases h
      | ok c2 =>
        cases h3 : sagaChildren f (k + 1) rest with
        | error e => rw [h1] at h; dsimp only at h; rw [h2, h3] at h; cases h
        | ok cs' =>
          rw [h1] at h; dsimp only at h; rw [h2, h3] at h
          injection h with h
          rw [← h]
          intro σ hσ
          rcases List.mem_cons.mp hσ with rfl | hσ
          · exact hf _ _ _ _ _ hAB.1 hAB.2 h1
          · rcases List.mem_cons.mp hσ with rfl | hσ
            · exact hf _ _ _ _ _ hAB.2 hAB.1 h2
            · exact ih (k + 1) cs' (fun p hp' => hp p (List.mem_cons_of_mem _ hp')) h3 σ hσ

theorem pairs_len (n : Nat) (l : List (Indiv K)) (h : AllLen n l) : ∀ p ∈ pairs l, p.1.genome.length = n ∧ p.2.genome.length = n :=
  fun p hp => ⟨h _ (mem_pairs l p hp).1, h _ (mem_pairs l p hp).2⟩

theorem EvLen.len {ev : Eval K} {n : Nat} {pop : List (Indiv K)} (h : ∀ σ ∈ pop, EvLen ev n σ) : AllLen n pop := fun σ hσ => (h σ hσ).1

/-- One generation of saga1 evaluates only genomes of the right length. -/
theorem saga1Step_sat (cfg : Saga1Cfg K) (ev : Eval K) (n : Nat) (s : Saga1State K) (dr : GADraw K) (h : ∀ σ ∈ s.pop, EvLen ev n σ) :
    (saga1Step cfg s dr).Sat ev (HasLen n) fun s' => ∀ σ ∈ s'.pop, EvLen ev n σ := by
  unfold saga1Step
  refine Prog.Sat.bind' (P := fun _ => True) (Prog.Sat.lift fun _ _ => trivial) fun fs _ => ?_
  refine Prog.Sat.bind' (P := fun _ => True) (Prog.Sat.lift fun _ _ => trivial) fun rates _ => ?_
  refine Prog.Sat.bind' (P := fun ps => ∀ σ ∈ ps, σ ∈ s.pop) (Prog.Sat.lift fun ps hps => mem_select _ _ _ hps) fun parents hpar => ?_
  refine Prog.Sat.bind' (P := fun cs => AllLen n cs) (Prog.Sat.lift fun cs hcs => sagaChildren_len _ n
    (fun k b A B C hA hB hC => crossoverA_len _ _ _ _ _ _ n hA hB hC) _ _ cs (pairs_len n _ fun σ hσ => (h σ (hpar σ hσ)).1) hcs) fun cs hcs => ?_
  refine Prog.Sat.bind' (evaluateAll_sat ev n _ ?_) fun pop hpop => hpop.2
  intro σ hσ
  rcases List.mem_append.mp hσ with hσ | hσ
  · exact (h σ (mem_sortedDesc_take _ _ _ σ hσ)).1
  · exact (gaMutate_spec _ _ cs n hcs).1 σ hσ

theorem saga1_sat (cfg : Saga1Cfg K) (draws : List (GADraw K)) (rates : Rates K) (n : Nat) (ev : Eval K) (pop : List (Indiv K)) (h : AllLen n pop) :
    (saga1 cfg draws rates pop).Sat ev (HasLen n) fun s => ∀ σ ∈ s.pop, EvLen ev n σ := by
  unfold saga1
  by_cases he : cfg.populationSize % 2 = 0
  · rw [if_pos he]
    refine Prog.Sat.bind' (evaluateAll_sat ev n _ h) fun pop hpop => ?_
    exact Prog.Sat.forEach (fun _ s => ∀ σ ∈ s.pop, EvLen ev n σ) _ draws ⟨pop, rates, []⟩ hpop.2 fun d _ s hs => saga1Step_sat cfg ev n s d hs
  · rw [if_neg he]; trivial

/-! ## saga2 -/

theorem saga2Cross_len (s : Saga2State) (cfg : Saga2Cfg) (r : ℝ) (c : CrossDraw ℝ) (A B C : Indiv ℝ) (n : Nat) (hA : A.genome.length = n)
    (hB : B.genome.length = n) (h : saga2Cross s cfg r c A B = .ok C) : C.genome.length = n := by
  unfold saga2Cross at h
  split at h
  · injection h with h; rw [← h]; exact hA
  · exact crossoverA_len _ _ _ _ _ _ n hA hB h

theorem saga2Mutate_len (s : Saga2State) (cfg : Saga2Cfg) (u : Nat → ℝ) (c : Indiv ℝ) : (saga2Mutate s cfg u c).genome.length = c.genome.length := by
  unfold saga2Mutate
  split
  · rfl
  · exact length_bitFlips _ _ _

theorem saga2Adjust_pop (cfg : Saga2Cfg) (s s' : Saga2State) (h : saga2Adjust cfg s = .ok s') : s'.pop = s.pop := by
  unfold saga2Adjust at h
  dsimp only at h
  split at h
  · cases h
  · injection h with h; rw [← h]

theorem saga2Step_sat (cfg : Saga2Cfg) (ev : Eval ℝ) (n : Nat) (s : Saga2State) (d : GADraw ℝ × Nat) (h : ∀ σ ∈ s.pop, EvLen ev n σ) :
    (saga2Step cfg s d).Sat ev (HasLen n) fun s' => ∀ σ ∈ s'.pop, EvLen ev n σ := by
  unfold saga2Step
  refine Prog.Sat.bind' (P := fun ps => ∀ σ ∈ ps, σ ∈ s.pop) (Prog.Sat.lift fun ps hps => mem_select _ _ _ hps) fun parents hpar => ?_
  refine Prog.Sat.bind' (P := fun cs => AllLen n cs) (Prog.Sat.lift fun cs hcs => sagaChildren_len _ n
    (fun k b A B C hA hB hC => saga2Cross_len _ _ _ _ _ _ _ n hA hB hC) _ _ cs (pairs_len n _ fun σ hσ => (h σ (hpar σ hσ)).1) hcs) fun cs hcs => ?_
  refine Prog.Sat.bind' (evaluateAll_sat ev n _ hcs) fun cs' hcs' => ?_
  refine Prog.Sat.bind' (evaluateAll_sat ev n _ ?_) fun pop hpop => ?_
  · intro σ hσ
    rcases List.mem_append.mp hσ with hσ | hσ
    · exact (h σ (mem_sortedDesc_take _ _ _ σ hσ)).1
    · obtain ⟨⟨c, k⟩, hm, rfl⟩ := List.mem_map.mp hσ
      rw [saga2Mutate_len]
      exact (hcs'.2 c (List.fst_mem_of_mem_zipIdx hm)).1
  refine Prog.Sat.bind' (P := fun _ => True) (Prog.Sat.lift fun _ _ => trivial) fun stats _ => ?_
  dsimp only
  split
  · refine Prog.Sat.lift fun s' hs' => ?_
    rw [saga2Adjust_pop _ _ _ hs']
    exact hpop.2
  · exact hpop.2

theorem saga2_sat (cfg : Saga2Cfg) (draws : List (GADraw ℝ)) (a b : Option ℝ) (n : Nat) (ev : Eval ℝ) (pop : List (Indiv ℝ)) (h : AllLen n pop) :
    (saga2 cfg draws a b pop).Sat ev (HasLen n) fun s => ∀ σ ∈ s.pop, EvLen ev n σ := by
  unfold saga2
  by_cases he : cfg.populationSize % 2 = 0
  · rw [if_pos he]
    refine Prog.Sat.bind' (evaluateAll_sat ev n _ h) fun pop hpop => ?_
    refine Prog.Sat.bind' (P := fun _ => True) (Prog.Sat.lift fun _ _ => trivial) fun stats _ => ?_
    exact Prog.Sat.forEach (fun _ s => ∀ σ ∈ s.pop, EvLen ev n σ) _ _ ⟨pop, pop, stats, _, _, a, b⟩ hpop.2 fun d _ s hs => saga2Step_sat cfg ev n s d hs
  · rw [if_neg he]; trivial

/-! ## saga3 -/

/-- What one crossover does to the objects: the child is an object, and every object of the result has parameters that were drawn from the parents or are in
the unit interval, and a genome of the length of the parents. -/
theorem saga3Cross_inv (pmr : K) (d : Saga3Draw K) (h h' : Objs K) (a b c : Nat) (P : K → Prop) (n : Nat)
    (hP : ∀ x, P (min (max x 0) 1)) (hr : ∀ o ∈ h, P o.crossRate ∧ P o.mutRate ∧ o.indiv.genome.length = n)
    (hx : saga3Cross pmr d h a b = .ok (h', c)) : ∀ o ∈ h', P o.crossRate ∧ P o.mutRate ∧ o.indiv.genome.length = n := by
  unfold saga3Cross at hx
  cases ha : h[a]? with
  | none => rw [ha] at hx; cases hx
  | some A =>
    cases hb : h[b]? with
    | none => rw [ha, hb] at hx; cases hx
    | some B =>
      have hA := hr A (List.mem_of_getElem? ha)
      have hB := hr B (List.mem_of_getElem? hb)
      have hp : P (saga3Params pmr d A B).1 ∧ P (saga3Params pmr d A B).2.1 := by
        unfold saga3Params
        dsimp only
        by_cases hpm : d.r < pmr
        · rw [if_pos hpm]; exact ⟨hP _, hP _⟩
        · rw [if_neg hpm]
          constructor
          · dsimp only
            split
            · exact hA.1
            · exact hB.1
          · dsimp only
            split
            · exact hA.2.1
            · exact hB.2.1
      rw [ha, hb] at hx
      dsimp only at hx
      have hin : ∀ o ∈ h.set a { A with crossRate := (saga3Params pmr d A B).1, mutRate := (saga3Params pmr d A B).2.1, method := (saga3Params pmr d A B).2.2 },
          P o.crossRate ∧ P o.mutRate ∧ o.indiv.genome.length = n := by
        intro o ho
        rcases List.mem_or_eq_of_mem_set ho with ho | rfl
        · exact hr o ho
        · exact ⟨hp.1, hp.2, hA.2.2⟩
      have happ : ∀ σ : Indiv K, σ.genome.length = n →
          ∀ o ∈ h ++ [(⟨σ, (saga3Params pmr d A B).1, (saga3Params pmr d A B).2.1, (saga3Params pmr d A B).2.2⟩ : SagaObj K)],
          P o.crossRate ∧ P o.mutRate ∧ o.indiv.genome.length = n := by
        intro σ hσ o ho
        rcases List.mem_append.mp ho with ho | ho
        · exact hr o ho
        · rw [List.mem_singleton.mp ho]; exact ⟨hp.1, hp.2, hσ⟩
      split at hx
      · split at hx
        · split at hx
          · injection hx with hx; injection hx with h1 h2; rw [← h1]; exact hin
          · injection hx with hx; injection hx with h1 h2; rw [← h1]; exact happ _ (nPointA_len _ _ _ n hA.2.2 hB.2.2)
        · split at hx
          · cases hx
          · rename_i g hg
            injection hx with hx; injection hx with h1 h2; rw [← h1]
            exact happ _ ((uniformCross_get _ _ _ g hg).1.trans hA.2.2)
      · injection hx with hx; injection hx with h1 h2; rw [← h1]; exact hin

theorem saga3Children_inv (pmr : K) (draw : Nat → Bool → Saga3Draw K) (P : K → Prop) (n : Nat) (hP : ∀ x, P (min (max x 0) 1))
    (k : Nat) (ps : List (Nat × Nat)) (h h' : Objs K) (cs : List Nat) (hr : ∀ o ∈ h, P o.crossRate ∧ P o.mutRate ∧ o.indiv.genome.length = n)
    (hx : saga3Children pmr draw k ps h = .ok (h', cs)) : ∀ o ∈ h', P o.crossRate ∧ P o.mutRate ∧ o.indiv.genome.length = n := by
  induction ps generalizing k h cs with
  | nil => injection hx with hx; injection hx with h1 h2; rw [← h1]; exact hr
  | cons p rest ih =>
    obtain ⟨a, b⟩ := p
    unfold saga3Children at hx
    cases h1 : saga3Cross pmr (draw k true) h a b with
    | error e => rw [h1] at hx; cases hx
    | ok x1 =>
      obtain ⟨H1, c1⟩ := x1
      rw [h1] at hx
      dsimp only at hx
      have hr1 := saga3Cross_inv pmr _ h H1 a b c1 P n hP hr h1
      cases h2 : saga3Cross pmr (draw k false) H1 b a with
      | error e => rw [h2] at hx; cases hx
      | ok x2 =>
        obtain ⟨H2, c2⟩ := x2
        rw [h2] at hx
        dsimp only at hx
        have hr2 := saga3Cross_inv pmr _ H1 H2 b a c2 P n hP hr1 h2
        cases h3 : saga3Children pmr draw (k + 1) rest H2 with
        | error e => rw [h3] at hx; cases hx
        | ok x3 =>
          obtain ⟨H3, cs3⟩ := x3
          rw [h3] at hx
          injection hx with hx
          injection hx with h4 h5
          exact ih (k + 1) H2 cs3 hr2 (h4 ▸ h3)

/-- Objects whose parameters satisfy `P` and whose solution is evaluated and has `n` bits. -/
def SagaObj.Good (P : K → Prop) (ev : Eval K) (n : Nat) (o : SagaObj K) : Prop := P o.crossRate ∧ P o.mutRate ∧ EvLen ev n o.indiv

theorem sagaEvaluate_sat (P : K → Prop) (ev : Eval K) (n : Nat) (os : Objs K) (h : ∀ o ∈ os, P o.crossRate ∧ P o.mutRate ∧ o.indiv.genome.length = n) :
    (Prog.each SagaObj.evaluate os).Sat ev (HasLen n) fun os' => ∀ o ∈ os', o.Good P ev n := by
  refine Prog.Sat.mono ?_ _ (Prog.Sat.each (fun o : SagaObj K => P o.crossRate ∧ P o.mutRate ∧ o.indiv.genome.length = n)
    (fun _ o' => o'.Good P ev n) _ os h fun o ho => ?_)
  · intro os' hos
    induction hos with
    | nil => intro o ho; cases ho
    | cons h1 _ ih =>
      intro o ho
      rcases List.mem_cons.mp ho with rfl | ho
      · exact h1
      · exact ih (fun o ho => h o (List.mem_cons_of_mem _ ho)) o ho
  · exact Prog.Sat.bind (evaluate_sat ev n o.indiv ho.2.2) fun σ hσ => ⟨ho.1, ho.2.1, hσ.2⟩

theorem saga3Step_sat (cfg : Saga3Cfg K) (P : K → Prop) (hP : ∀ x, P (min (max x 0) 1)) (ev : Eval K) (n : Nat) (s : Saga3State K)
    (d : Saga3GenDraw K) (h : ∀ o ∈ s.pop, o.Good P ev n) (hl : ∀ r ∈ s.log, P r.1 ∧ P r.2) :
    (saga3Step cfg s d).Sat ev (HasLen n) fun s' => (∀ o ∈ s'.pop, o.Good P ev n) ∧ ∀ r ∈ s'.log, P r.1 ∧ P r.2 := by
  unfold saga3Step
  refine Prog.Sat.bind' (P := fun _ => True) (Prog.Sat.lift fun _ _ => trivial) fun parents _ => ?_
  refine Prog.Sat.bind' (P := fun hc => ∀ o ∈ hc.1, P o.crossRate ∧ P o.mutRate ∧ o.indiv.genome.length = n) (Prog.Sat.lift fun hc hhc =>
    saga3Children_inv cfg.paramRate d.cross P n hP 0 _ s.pop hc.1 hc.2 (fun o ho => ⟨(h o ho).1, (h o ho).2.1, (h o ho).2.2.1⟩) hhc) fun hc hhc => ?_
  refine Prog.Sat.bind' (sagaEvaluate_sat P ev n _ ?_) fun pop hpop => ⟨hpop, ?_⟩
  · intro o ho
    rcases List.mem_append.mp ho with ho | ho
    · obtain ⟨c, _, hc'⟩ := List.mem_filterMap.mp ho
      exact hhc o (List.mem_of_getElem? hc')
    · obtain ⟨⟨c, k⟩, hm, rfl⟩ := List.mem_map.mp ho
      obtain ⟨i, _, hc'⟩ := List.mem_filterMap.mp (List.fst_mem_of_mem_zipIdx hm)
      have := hhc c (List.mem_of_getElem? hc')
      exact ⟨this.1, this.2.1, (length_bitFlips _ _ _).trans this.2.2⟩
  · intro r hr
    rcases List.mem_append.mp hr with hr | hr
    · exact hl r hr
    · obtain ⟨o, ho, rfl⟩ := List.mem_map.mp hr
      rcases List.mem_append.mp ho with ho | ho
      · exact ⟨(hhc o ho).1, (hhc o ho).2.1⟩
      · exact ⟨(hpop o ho).1, (hpop o ho).2.1⟩

theorem saga3_sat (cfg : Saga3Cfg K) (P : K → Prop) (hP : ∀ x, P (min (max x 0) 1)) (ev : Eval K) (n : Nat) (draws : List (Saga3GenDraw K))
    (pop : Objs K) (h : ∀ o ∈ pop, P o.crossRate ∧ P o.mutRate ∧ o.indiv.genome.length = n) :
    (saga3 cfg draws pop).Sat ev (HasLen n) fun s => (∀ o ∈ s.pop, o.Good P ev n) ∧ ∀ r ∈ s.log, P r.1 ∧ P r.2 := by
  unfold saga3
  by_cases he : cfg.populationSize % 2 = 0
  · rw [if_pos he]
    refine Prog.Sat.bind' (sagaEvaluate_sat P ev n _ h) fun pop hpop => ?_
    refine Prog.Sat.forEach (fun _ s => (∀ o ∈ s.pop, o.Good P ev n) ∧ ∀ r ∈ s.log, P r.1 ∧ P r.2) _ draws
      ⟨pop, pop.map fun o => (o.crossRate, o.mutRate)⟩ ⟨hpop, ?_⟩ fun d _ s hs => saga3Step_sat cfg P hP ev n s d hs.1 hs.2
    intro r hr
    obtain ⟨o, ho, rfl⟩ := List.mem_map.mp hr
    exact ⟨(hpop o ho).1, (hpop o ho).2.1⟩
  · rw [if_neg he]; trivial

end Suprb
