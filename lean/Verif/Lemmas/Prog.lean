import Verif.Model.Prog
import Verif.Lemmas.SupRB

/-!
# Reasoning about programs
-/

set_option autoImplicit false
set_option linter.unusedSectionVars false

namespace Suprb

variable {K : Type} [Field K] [LinearOrder K]

namespace Prog

variable {α β γ : Type}

/-- All evaluated genomes satisfy `n` and the result, if there is one, satisfies `P`. -/
def Sat (ev : Eval K) (n : List Bool → Prop) (P : α → Prop) : Prog K α → Prop
  | ret a => P a
  | err _ => True
  | eval g k => n g ∧ ∀ s, ev g = .ok s → Sat ev n P (k s)

theorem Sat.mono {ev : Eval K} {n : List Bool → Prop} {P Q : α → Prop} (h : ∀ a, P a → Q a) (p : Prog K α) : Sat ev n P p → Sat ev n Q p := by
  induction p with
  | ret a => exact h a
  | err e => exact fun _ => trivial
  | eval g k ih => exact fun hp => ⟨hp.1, fun s hs => ih s (hp.2 s hs)⟩

theorem Sat.bind {ev : Eval K} {n : List Bool → Prop} {P : α → Prop} {Q : β → Prop} {p : Prog K α} {f : α → Prog K β} (hp : Sat ev n P p)
    (hf : ∀ a, P a → Sat ev n Q (f a)) : Sat ev n Q (p.bind f) := by
  induction p with
  | ret a => exact hf a hp
  | err e => trivial
  | eval g k ih => exact ⟨hp.1, fun s hs => ih s (hp.2 s hs)⟩

theorem Sat.bind' {ev : Eval K} {n : List Bool → Prop} {P : α → Prop} {Q : β → Prop} {p : Prog K α} {f : α → Prog K β} (hp : Sat ev n P p)
    (hf : ∀ a, P a → Sat ev n Q (f a)) : Sat ev n Q (p >>= f) := Sat.bind hp hf

theorem Sat.lift {ev : Eval K} {n : List Bool → Prop} {P : α → Prop} {r : Except PyErr α} (h : ∀ a, r = .ok a → P a) : Sat ev n P (lift r : Prog K α) := by
  cases r with
  | ok a => exact h a rfl
  | error e => trivial

theorem Sat.run {ev : Eval K} {n : List Bool → Prop} {P : α → Prop} {p : Prog K α} (hp : Sat ev n P p) (a : α) (h : p.run ev = .ok a) : P a := by
  induction p with
  | ret b => cases h; exact hp
  | err e => cases h
  | eval g k ih =>
    unfold Prog.run at h
    cases hg : ev g with
    | error e => rw [hg] at h; cases h
    | ok s => rw [hg] at h; exact ih s (hp.2 s hg) h

theorem Sat.congr {ev ev' : Eval K} {n : List Bool → Prop} {P : α → Prop} {p : Prog K α} (hp : Sat ev n P p) (h : ∀ g : List Bool, n g → ev g = ev' g) :
    p.run ev = p.run ev' := by
  induction p with
  | ret b => rfl
  | err e => rfl
  | eval g k ih =>
    unfold Prog.run
    rw [← h g hp.1]
    cases hg : ev g with
    | error e => rfl
    | ok s => exact ih s (hp.2 s hg)

theorem Sat.forEach {ev : Eval K} {n : List Bool → Prop} (I : List β → α → Prop) (f : α → β → Prog K α) (l : List β) (a : α) (h0 : I l a)
    (hf : ∀ b rest a, I (b :: rest) a → Sat ev n (I rest) (f a b)) : Sat ev n (I []) (forEach f l a) := by
  induction l generalizing a with
  | nil => exact h0
  | cons b rest ih => exact Sat.bind (hf b rest a h0) fun a' ha' => ih a' ha'

theorem Sat.each {ev : Eval K} {n : List Bool → Prop} (P : α → Prop) (R : α → β → Prop) (f : α → Prog K β) (l : List α) (hl : ∀ a ∈ l, P a)
    (hf : ∀ a, P a → Sat ev n (R a) (f a)) : Sat ev n (List.Forall₂ R l) (each f l) := by
  induction l with
  | nil => exact .nil
  | cons a rest ih =>
    refine Sat.bind (hf a (hl a (List.mem_cons_self ..))) fun b hb => ?_
    refine Sat.bind (ih fun x hx => hl x (List.mem_cons_of_mem _ hx)) fun bs hbs => ?_
    exact .cons hb hbs

theorem run_bind (ev : Eval K) (p : Prog K α) (f : α → Prog K β) :
    (p.bind f).run ev = match p.run ev with
      | .error e => .error e
      | .ok a => (f a).run ev := by
  induction p with
  | ret a => rfl
  | err e => rfl
  | eval g k ih =>
    change run ev (eval g fun s => (k s).bind f) = _
    rw [run, run]
    cases hg : ev g with
    | error e => rfl
    | ok s => exact ih s

theorem run_bind_ok {ev : Eval K} {p : Prog K α} {f : α → Prog K β} {a : α} (h : p.run ev = .ok a) : (p >>= f).run ev = (f a).run ev := by
  change (p.bind f).run ev = _
  rw [run_bind, h]

theorem run_lift (ev : Eval K) (r : Except PyErr α) : (lift r : Prog K α).run ev = r := by
  cases r <;> rfl

theorem run_forEach_cons {ev : Eval K} {f : α → β → Prog K α} {b : β} {rest : List β} {a a' : α} (h : (f a b).run ev = .ok a') :
    (forEach f (b :: rest) a).run ev = (forEach f rest a').run ev := by
  change ((f a b).bind (forEach f rest)).run ev = _
  rw [run_bind, h]

theorem Sat.trivial (ev : Eval K) (p : Prog K α) : Sat ev (fun _ => True) (fun _ => True) p := by
  induction p with
  | ret a => exact True.intro
  | err e => exact True.intro
  | eval g k ih => exact ⟨True.intro, fun s _ => ih s⟩

end Prog

/-- Genomes of length `n`. -/
def HasLen (n : Nat) (g : List Bool) : Prop := g.length = n

/-- An individual of `n` bits that has been evaluated. -/
def EvLen (ev : Eval K) (n : Nat) (σ : Indiv K) : Prop := σ.genome.length = n ∧ Evaluated ev σ

theorem evaluate_sat (ev : Eval K) (n : Nat) (σ : Indiv K) (h : σ.genome.length = n) :
    σ.evaluate.Sat ev (HasLen n) fun τ => τ.genome = σ.genome ∧ EvLen ev n τ := by
  refine ⟨h, fun s hs => ⟨rfl, h, s, rfl, hs⟩⟩

theorem evaluateAll_sat (ev : Eval K) (n : Nat) (pop : List (Indiv K)) (h : AllLen n pop) :
    (evaluateAll pop).Sat ev (HasLen n) fun pop' => pop'.map Indiv.genome = pop.map Indiv.genome ∧ ∀ τ ∈ pop', EvLen ev n τ := by
  refine Prog.Sat.mono ?_ _ (Prog.Sat.each (fun σ : Indiv K => σ.genome.length = n) (fun σ τ => τ.genome = σ.genome ∧ EvLen ev n τ) _ pop h
    fun σ hσ => evaluate_sat ev n σ hσ)
  intro pop' hp
  induction hp with
  | nil => exact ⟨rfl, by simp⟩
  | cons h1 _ ih =>
    have ih := ih fun σ hσ => h σ (List.mem_cons_of_mem _ hσ)
    refine ⟨by simp only [List.map_cons, h1.1, ih.1], ?_⟩
    intro τ hτ
    rcases List.mem_cons.mp hτ with rfl | hτ
    · exact h1.2
    · exact ih.2 τ hτ

/-- Programs whose evaluated genomes all have `n` bits, and which return evaluated individuals of `n` bits, satisfy the contract of metaheuristics. -/
theorem strategy_good (p : Nat → List (Indiv K) → Prog K (List (Indiv K)))
    (h : ∀ n ev pop, AllLen n pop → (p n pop).Sat ev (HasLen n) fun pop' => ∀ σ ∈ pop', EvLen ev n σ) : (Prog.strategy p).Good where
  lens := fun n ev pop pop' hl hr σ hσ => ((h n ev pop hl).run _ hr σ hσ).1
  evaluated := fun n ev pop pop' hl hr σ hσ => ((h n ev pop hl).run _ hr σ hσ).2
  local_ := fun n ev ev' pop hl he => (h n ev pop hl).congr he

section MinMax

variable {K : Type} [Field K] [LinearOrder K]

theorem npMin_eq (l : List K) (lo : K) (h : npMin l = .ok lo) : lo ∈ l ∧ ∀ x ∈ l, lo ≤ x := by
  cases l with
  | nil => cases h
  | cons a as =>
    injection h with h
    subst h
    induction as generalizing a with
    | nil => simp
    | cons b bs ih =>
      obtain ⟨h1, h2⟩ := ih (min a b)
      refine ⟨?_, ?_⟩
      · rcases List.mem_cons.mp h1 with h | h
        · rw [List.foldl_cons, h]
          rcases min_choice a b with h' | h' <;> rw [h'] <;> simp
        · exact List.mem_cons_of_mem _ (List.mem_cons_of_mem _ h)
      · intro x hx
        have h0 := h2 (min a b) (List.mem_cons_self ..)
        rw [List.foldl_cons]
        rcases List.mem_cons.mp hx with rfl | hx
        · exact h0.trans (min_le_left _ _)
        · rcases List.mem_cons.mp hx with rfl | hx
          · exact h0.trans (min_le_right _ _)
          · exact h2 x (List.mem_cons_of_mem _ hx)

theorem npMax_eq (l : List K) (hi : K) (h : npMax l = .ok hi) : hi ∈ l ∧ ∀ x ∈ l, x ≤ hi := by
  cases l with
  | nil => cases h
  | cons a as =>
    injection h with h
    subst h
    induction as generalizing a with
    | nil => simp
    | cons b bs ih =>
      obtain ⟨h1, h2⟩ := ih (max a b)
      refine ⟨?_, ?_⟩
      · rcases List.mem_cons.mp h1 with h | h
        · rw [List.foldl_cons, h]
          rcases max_choice a b with h' | h' <;> rw [h'] <;> simp
        · exact List.mem_cons_of_mem _ (List.mem_cons_of_mem _ h)
      · intro x hx
        have h0 := h2 (max a b) (List.mem_cons_self ..)
        rw [List.foldl_cons]
        rcases List.mem_cons.mp hx with rfl | hx
        · exact (le_max_left _ _).trans h0
        · rcases List.mem_cons.mp hx with rfl | hx
          · exact (le_max_right _ _).trans h0
          · exact h2 x (List.mem_cons_of_mem _ hx)

end MinMax

end Suprb
