import Verif.Model.Components
import Mathlib.Tactic.Common
import Mathlib.Data.List.Forall2

/-!
# Lemmas about estimators and components as objects
-/

set_option autoImplicit false
set_option linter.unusedSectionVars false

namespace Suprb

namespace Comp

variable {A : Type} {α β : Type}

/-! ## The settings of an object -/

/-- What one sees of a value: a plain value, `None`, an object of some class. -/
inductive Look (A : Type)
  | atom (a : A)
  | none
  | obj (cls : Name)
  | missing
  deriving DecidableEq

/-- The names of the settings of an object: its parameters, or all attributes if it has no `get_params`. -/
def settings (T : Name → ClassInfo A) (o : CObj A) : List Name :=
  match (T o.cls).params with
  | some ps => ps
  | none => o.attrs.map Prod.fst

/-- What is found from a value by following names of settings. -/
def look (T : Name → ClassInfo A) (h : CHeap A) : List Name → CVal A → Look A
  | [], .atom a => .atom a
  | [], .none => .none
  | [], .ref i => match h[i]? with
    | none => .missing
    | some o => .obj o.cls
  | n :: rest, .ref i => match h[i]? with
    | none => .missing
    | some o => if n ∈ settings T o then (match o.attr n with | some v => look T h rest v | none => .missing) else .missing
  | _ :: _, _ => .missing

/-- The value is no object, or one that exists. -/
def Valid (h : CHeap A) : CVal A → Prop
  | .ref i => i < h.length
  | _ => True

/-- All objects refer to existing objects. -/
def Closed (h : CHeap A) : Prop := ∀ (i : Nat) (o : CObj A), h[i]? = some o → ∀ q ∈ o.attrs, Valid h q.2

theorem lookup_mem {n : Name} {v : CVal A} {l : List (Name × CVal A)} (h : l.lookup n = some v) : (n, v) ∈ l := by
  obtain ⟨l1, l2, rfl, _⟩ := List.lookup_eq_some_iff.mp h
  simp

theorem valid_mono {h h' : CHeap A} (hl : h.length ≤ h'.length) {v : CVal A} (hv : Valid h v) : Valid h' v := by
  cases v with
  | ref i => exact lt_of_lt_of_le hv hl
  | _ => trivial

/-- Settings found in a heap are the same in another heap if the objects on the way are. -/
theorem look_congr (T : Name → ClassInfo A) (h h' : CHeap A) (S : Nat → Prop)
    (hS : ∀ i, S i → ∃ o o' : CObj A, h[i]? = some o ∧ h'[i]? = some o' ∧ o'.cls = o.cls ∧ settings T o' = settings T o ∧
      (∀ n ∈ settings T o, o'.attr n = o.attr n) ∧ ∀ n ∈ settings T o, ∀ j, o.attr n = some (.ref j) → S j) :
    ∀ (path : List Name) (v : CVal A), (∀ i, v = .ref i → S i) → look T h' path v = look T h path v := by
  intro path
  induction path with
  | nil =>
    intro v hv
    cases v with
    | ref i =>
      obtain ⟨o, o', h1, h2, h3, _⟩ := hS i (hv i rfl)
      simp only [look, h1, h2, h3]
    | _ => rfl
  | cons n rest ih =>
    intro v hv
    cases v with
    | ref i =>
      obtain ⟨o, o', h1, h2, h3, h4, h5, h6⟩ := hS i (hv i rfl)
      simp only [look, h1, h2, h4]
      by_cases hn : n ∈ settings T o
      · rw [if_pos hn, if_pos hn, h5 n hn]
        cases ha : o.attr n with
        | none => rfl
        | some w =>
          dsimp only
          refine ih w fun j hj => h6 n hn j ?_
          rw [ha, hj]
      · rw [if_neg hn, if_neg hn]
    | _ => rfl

theorem closed_attr {h : CHeap A} (hc : Closed h) {i : Nat} {o : CObj A} (ho : h[i]? = some o) {n : Name} {v : CVal A} (hv : o.attr n = some v) : Valid h v :=
  hc i o ho (n, v) (lookup_mem hv)

/-- In a heap extended by new objects everything that existed looks the same. -/
theorem look_append (T : Name → ClassInfo A) (h l : CHeap A) (hc : Closed h) (path : List Name) (v : CVal A) (hv : Valid h v) :
    look T (h ++ l) path v = look T h path v := by
  refine look_congr T h (h ++ l) (fun i => i < h.length) (fun i hi => ?_) path v (fun i hi => by subst hi; exact hv)
  refine ⟨h[i], h[i], List.getElem?_eq_getElem hi, ?_, rfl, rfl, fun _ _ => rfl, fun n _ j hj => ?_⟩
  · rw [List.getElem?_append_left hi, List.getElem?_eq_getElem hi]
  · exact closed_attr hc (List.getElem?_eq_getElem hi) hj

/-! ## New objects -/

/-- The objects from `n` on refer to each other only. -/
def NewClosed (n : Nat) (h : CHeap A) : Prop := ∀ (i : Nat) (o : CObj A), n ≤ i → h[i]? = some o → ∀ q ∈ o.attrs, ∀ j, q.2 = .ref j → n ≤ j ∧ j < h.length

/-- The value is no object, or one of those from `n` on. -/
def NewVal (n : Nat) (h : CHeap A) (v : CVal A) : Prop := ∀ j, v = .ref j → n ≤ j ∧ j < h.length

theorem newClosed_self (h : CHeap A) : NewClosed h.length h := by
  intro i o hi ho
  rw [List.getElem?_eq_none hi] at ho
  cases ho

theorem newClosed_trans {n : Nat} {h l : CHeap A} (h1 : NewClosed n h) (hn : n ≤ h.length) (h2 : NewClosed h.length (h ++ l)) : NewClosed n (h ++ l) := by
  intro i o hi ho q hq j hj
  by_cases hl : i < h.length
  · rw [List.getElem?_append_left hl] at ho
    obtain ⟨a, b⟩ := h1 i o hi ho q hq j hj
    exact ⟨a, by rw [List.length_append]; omega⟩
  · obtain ⟨a, b⟩ := h2 i o (by omega) ho q hq j hj
    exact ⟨by omega, b⟩

theorem closed_append {n : Nat} {h l : CHeap A} (hc : Closed h) (hl : n ≤ h.length) (hn : NewClosed n (h ++ l)) : Closed (h ++ l) := by
  intro i o ho q hq
  by_cases hl : i < h.length
  · rw [List.getElem?_append_left hl] at ho
    exact valid_mono (by simp) (hc i o ho q hq)
  · cases hv : q.2 with
    | ref j => exact (hn i o (by omega) ho q hq j hv).2
    | _ => trivial

/-- An action only adds objects; those from `n` on refer to each other only; the result satisfies `Q`. -/
def AddsFrom (n : Nat) (m : CM A α) (h : CHeap A) (Q : CHeap A → α → Prop) : Prop :=
  n ≤ h.length → NewClosed n h → ∃ l, (m h).1 = h ++ l ∧ NewClosed n (h ++ l) ∧ ∀ a, (m h).2 = .ok a → Q (h ++ l) a

theorem AddsFrom.ret {n : Nat} {h : CHeap A} (a : α) {Q : CHeap A → α → Prop} (hq : Q h a) : AddsFrom n (CM.ret a) h Q := by
  intro _ hn
  refine ⟨[], by simp [CM.ret], by simpa using hn, fun b hb => ?_⟩
  cases hb
  simpa using hq

theorem AddsFrom.raise {n : Nat} {h : CHeap A} (e : PyErr) (Q : CHeap A → α → Prop) : AddsFrom n (CM.raise e) h Q := by
  intro _ hn
  exact ⟨[], by simp [CM.raise], by simpa using hn, fun b hb => by cases hb⟩

theorem AddsFrom.mono {n : Nat} {h : CHeap A} {m : CM A α} {Q Q' : CHeap A → α → Prop} (h1 : AddsFrom n m h Q) (h2 : ∀ l a, NewClosed n (h ++ l) → Q (h ++ l) a → Q' (h ++ l) a) :
    AddsFrom n m h Q' := by
  intro hl hn
  obtain ⟨l, a, b, c⟩ := h1 hl hn
  exact ⟨l, a, b, fun x hx => h2 _ _ b (c x hx)⟩

theorem AddsFrom.bind {n : Nat} {h : CHeap A} {m : CM A α} {f : α → CM A β} {Q : CHeap A → α → Prop} {Q' : CHeap A → β → Prop} (h1 : AddsFrom n m h Q)
    (h2 : ∀ (l : CHeap A) (a : α), NewClosed n (h ++ l) → Q (h ++ l) a → AddsFrom n (f a) (h ++ l) Q') : AddsFrom n (m.bind f) h Q' := by
  intro hl hn
  obtain ⟨l1, a1, a2, a3⟩ := h1 hl hn
  unfold CM.bind
  cases hm : m h with
  | mk h' r =>
    rw [hm] at a1 a3
    dsimp only at a1 a3
    subst a1
    cases r with
    | error e => exact ⟨l1, rfl, a2, fun b hb => by cases hb⟩
    | ok a =>
      obtain ⟨l2, b1, b2, b3⟩ := h2 l1 a a2 (a3 a rfl) (by rw [List.length_append]; omega) a2
      refine ⟨l1 ++ l2, ?_, ?_, ?_⟩
      · rw [← List.append_assoc]; exact b1
      · rw [← List.append_assoc]; exact b2
      · rw [← List.append_assoc]; exact b3

theorem AddsFrom.intro {n : Nat} {h : CHeap A} {m : CM A α} {Q : CHeap A → α → Prop} (hs : n ≤ h.length → NewClosed n h → AddsFrom n m h Q) : AddsFrom n m h Q :=
  fun a b => hs a b a b

theorem forall₂_right {R : α → β → Prop} {l : List α} {l' : List β} (h : List.Forall₂ R l l') {b : β} (hb : b ∈ l') : ∃ a ∈ l, R a b := by
  induction h with
  | nil => cases hb
  | cons hr _ ih =>
    rcases List.mem_cons.mp hb with rfl | hb
    · exact ⟨_, by simp, hr⟩
    · obtain ⟨a, ha, hab⟩ := ih hb
      exact ⟨a, List.mem_cons_of_mem _ ha, hab⟩

theorem AddsFrom.object {n : Nat} {h : CHeap A} (i : Nat) : AddsFrom n (CM.object i) h (fun h' o => h' = h ∧ h[i]? = some o) := by
  intro _ hn
  refine ⟨[], ?_, by simpa using hn, ?_⟩
  · unfold CM.object; cases h[i]? <;> simp
  · intro o ho
    unfold CM.object at ho
    cases hi : h[i]? with
    | none => rw [hi] at ho; cases ho
    | some o' => rw [hi] at ho; cases ho; simp

theorem AddsFrom.each {n : Nat} {h0 : CHeap A} (f : α → CM A β) (R : CHeap A → α → β → Prop)
    (hmono : ∀ l l' a b, NewClosed n (h0 ++ l) → R (h0 ++ l) a b → R (h0 ++ (l ++ l')) a b) :
    ∀ (xs : List α), (∀ x ∈ xs, ∀ l, NewClosed n (h0 ++ l) → AddsFrom n (f x) (h0 ++ l) fun h' b => R h' x b) →
      ∀ l, AddsFrom n (CM.each f xs) (h0 ++ l) fun h' bs => List.Forall₂ (R h') xs bs := by
  intro xs
  induction xs with
  | nil => intro _ l; exact AddsFrom.ret _ .nil
  | cons x xs ih =>
    intro hf l
    refine AddsFrom.intro fun hl hn => ?_
    refine AddsFrom.bind (hf x (by simp) l hn) fun l1 b hn1 hb => ?_
    rw [List.append_assoc] at hn1 hb ⊢
    refine AddsFrom.bind (ih (fun y hy => hf y (List.mem_cons_of_mem _ hy)) (l ++ l1)) fun l2 bs hn2 hbs => ?_
    refine AddsFrom.ret _ (.cons ?_ hbs)
    rw [List.append_assoc]
    exact hmono _ _ _ _ hn1 hb

theorem newVal_mono {n : Nat} {h : CHeap A} {v : CVal A} (hv : NewVal n h v) (l : CHeap A) : NewVal n (h ++ l) v := by
  intro j hj
  obtain ⟨a, b⟩ := hv j hj
  exact ⟨a, by rw [List.length_append]; omega⟩

theorem newVal_valid {n : Nat} {h : CHeap A} {v : CVal A} (hv : NewVal n h v) : Valid h v := by
  cases v with
  | ref j => exact (hv j rfl).2
  | _ => trivial

theorem AddsFrom.alloc {n : Nat} {h : CHeap A} (o : CObj A) (ho : ∀ q ∈ o.attrs, NewVal n h q.2) :
    AddsFrom n (CM.alloc o) h fun h' i => h' = h ++ [o] ∧ i = h.length := by
  intro hl hn
  refine ⟨[o], rfl, ?_, fun a ha => by cases ha; exact ⟨rfl, rfl⟩⟩
  intro i p hi hp q hq j hj
  by_cases hlt : i < h.length
  · rw [List.getElem?_append_left hlt] at hp
    obtain ⟨a, b⟩ := hn i p hi hp q hq j hj
    exact ⟨a, by rw [List.length_append]; omega⟩
  · have hi' : i = h.length := by
      have := (List.getElem?_eq_some_iff.mp hp).1
      rw [List.length_append, List.length_singleton] at this
      omega
    subst hi'
    rw [List.getElem?_append_right (le_refl _)] at hp
    simp only [Nat.sub_self, List.getElem?_cons_zero, Option.some.injEq] at hp
    subst hp
    obtain ⟨a, b⟩ := ho q hq j hj
    exact ⟨a, by rw [List.length_append]; omega⟩

/-! ## Copies -/

/-- A value is a copy of another one: a new object that looks the same. -/
def CopyOf (T : Name → ClassInfo A) (n : Nat) (h0 : CHeap A) (v : CVal A) (h' : CHeap A) (w : CVal A) : Prop :=
  NewVal n h' w ∧ (Closed h0 → Valid h0 v → ∀ path, look T h' path w = look T h0 path v)

theorem CopyOf.mono {T : Name → ClassInfo A} {n : Nat} {h0 l l' : CHeap A} {v w : CVal A} (hl : n ≤ h0.length) (hn : NewClosed n (h0 ++ l))
    (h : CopyOf T n h0 v (h0 ++ l) w) : CopyOf T n h0 v (h0 ++ (l ++ l')) w := by
  rw [← List.append_assoc]
  refine ⟨newVal_mono h.1 l', fun hc hv path => ?_⟩
  rw [look_append T _ l' (closed_append hc hl hn) path w (newVal_valid h.1)]
  exact h.2 hc hv path

theorem CopyOf.atom (T : Name → ClassInfo A) (n : Nat) (h0 : CHeap A) (a : A) : CopyOf T n h0 (.atom a) h0 (.atom a) :=
  ⟨(fun _ hj => by cases hj), fun _ _ _ => rfl⟩

theorem CopyOf.none (T : Name → ClassInfo A) (n : Nat) (h0 : CHeap A) : CopyOf T n h0 .none h0 .none :=
  ⟨(fun _ hj => by cases hj), fun _ _ _ => rfl⟩

/-- From a copy made in a later heap. -/
theorem CopyOf.base {T : Name → ClassInfo A} {n : Nat} {h0 l h' : CHeap A} {v w : CVal A} (hl : n ≤ h0.length) (hn : NewClosed n (h0 ++ l))
    (h : CopyOf T n (h0 ++ l) v h' w) : CopyOf T n h0 v h' w := by
  refine ⟨h.1, fun hc hv path => ?_⟩
  rw [h.2 (closed_append hc hl hn) (valid_mono (by simp) hv) path, look_append T h0 l hc path v hv]

theorem lookup_forall₂ {R : CVal A → CVal A → Prop} {l l' : List (Name × CVal A)} (h : List.Forall₂ (fun q q' => q'.1 = q.1 ∧ R q.2 q'.2) l l') (n : Name) :
    (l.lookup n = none ∧ l'.lookup n = none) ∨ ∃ v w, l.lookup n = some v ∧ l'.lookup n = some w ∧ R v w := by
  induction h with
  | nil => exact .inl ⟨rfl, rfl⟩
  | @cons q q' l l' hq _ ih =>
    obtain ⟨k, v⟩ := q
    obtain ⟨k', w⟩ := q'
    obtain ⟨rfl, hr⟩ := hq
    dsimp only at hr
    by_cases hk : n = k'
    · subst hk
      exact .inr ⟨v, w, by simp [List.lookup], by simp [List.lookup], hr⟩
    · have hb : (n == k') = false := by simpa using hk
      simpa [List.lookup, hb] using ih

theorem fst_forall₂ {R : CVal A → CVal A → Prop} {l l' : List (Name × CVal A)} (h : List.Forall₂ (fun q q' => q'.1 = q.1 ∧ R q.2 q'.2) l l') : l'.map Prod.fst = l.map Prod.fst := by
  induction h with
  | nil => rfl
  | cons hq _ ih => simp [hq.1, ih]

/-- A new object whose settings are copies is a copy. -/
theorem copy_object (T : Name → ClassInfo A) {n : Nat} {h0 l : CHeap A} (hl : n ≤ h0.length) (hn : NewClosed n (h0 ++ l)) {i : Nat} {o o' : CObj A} (ho : h0[i]? = some o)
    (hcls : o'.cls = o.cls) (hset : settings T o' = settings T o)
    (hattr : ∀ m ∈ settings T o, (o.attr m = none ∧ o'.attr m = none) ∨ ∃ v w, o.attr m = some v ∧ o'.attr m = some w ∧ CopyOf T n h0 v (h0 ++ l) w) :
    CopyOf T n h0 (.ref i) (h0 ++ l ++ [o']) (.ref (h0 ++ l).length) := by
  refine ⟨fun j hj => ?_, fun hc hv path => ?_⟩
  · cases hj
    simp only [List.length_append, List.length_singleton]
    omega
  · have hget : (h0 ++ l ++ [o'])[(h0 ++ l).length]? = some o' := by simp
    cases path with
    | nil => simp only [look, hget, ho, hcls]
    | cons m rest =>
      simp only [look, hget, ho, hset]
      by_cases hm : m ∈ settings T o
      · rw [if_pos hm, if_pos hm]
        rcases hattr m hm with ⟨a, b⟩ | ⟨v, w, a, b, c⟩
        · rw [a, b]
        · rw [a, b]
          dsimp only
          rw [look_append T _ _ (closed_append hc hl hn) rest w (newVal_valid c.1)]
          exact c.2 hc (closed_attr hc ho a) rest
      · rw [if_neg hm, if_neg hm]

theorem deepcopy_adds (T : Name → ClassInfo A) (n : Nat) : ∀ (k : Nat) (v : CVal A) (h : CHeap A), n ≤ h.length →
    AddsFrom n (deepcopy k v) h fun h' w => CopyOf T n h v h' w := by
  intro k
  induction k with
  | zero =>
    intro v h _
    cases v with
    | atom a => exact AddsFrom.ret _ (CopyOf.atom T n h a)
    | none => exact AddsFrom.ret _ (CopyOf.none T n h)
    | ref i => exact AddsFrom.raise _ _
  | succ k ih =>
    intro v h hl
    cases v with
    | atom a => exact AddsFrom.ret _ (CopyOf.atom T n h a)
    | none => exact AddsFrom.ret _ (CopyOf.none T n h)
    | ref i =>
      unfold deepcopy
      refine AddsFrom.bind (AddsFrom.object i) fun l0 o _ ⟨h1, ho⟩ => ?_
      rw [h1]
      have heach := AddsFrom.each (n := n) (h0 := h) (fun q : Name × CVal A => (deepcopy k q.2).bind fun v => CM.ret (q.1, v))
        (fun h' q q' => q'.1 = q.1 ∧ CopyOf T n h q.2 h' q'.2) (fun l l' a b hn hR => ⟨hR.1, hR.2.mono hl hn⟩) o.attrs
        (fun q _ l hn => AddsFrom.bind (ih q.2 (h ++ l) (by rw [List.length_append]; omega)) fun l1 w hn1 hw =>
          AddsFrom.ret _ ⟨rfl, hw.base hl hn⟩) []
      rw [List.append_nil] at heach
      refine AddsFrom.bind heach fun l attrs hn hF => ?_
      have hrefs : ∀ q ∈ attrs, NewVal n (h ++ l) q.2 := by
        intro q hq
        obtain ⟨q0, _, hq0⟩ := forall₂_right hF hq
        exact hq0.2.1
      refine AddsFrom.bind (AddsFrom.alloc _ hrefs) fun l2 j _ ⟨h2, hj⟩ => AddsFrom.ret _ ?_
      rw [h2]
      subst hj
      refine copy_object T hl hn ho rfl ?_ fun m _ => ?_
      · unfold settings
        cases hp : (T o.cls).params with
        | some ps => simp
        | none => exact fst_forall₂ (R := fun v w => CopyOf T n h v (h ++ l) w) hF
      · exact lookup_forall₂ (R := fun v w => CopyOf T n h v (h ++ l) w) hF m

theorem construct_adds (T : Name → ClassInfo A) (n : Nat) (h : CHeap A) (cls : Name) (given : List (Name × CVal A)) (hg : ∀ q ∈ given, NewVal n h q.2) :
    AddsFrom n (construct T cls given) h fun h' j => h' = h ++ [{ cls := cls, attrs := given ++ ((T cls).derived given).map fun q => (q.1, .atom q.2) }] ∧ j = h.length := by
  refine AddsFrom.intro fun hl hn => ?_
  intro _ _
  unfold construct
  cases (T cls).check h given with
  | some e => exact ⟨[], by simp, by simpa using hn, fun a ha => by cases ha⟩
  | none =>
    dsimp only
    split_ifs with hfill
    · exact ⟨[], by simp, by simpa using hn, fun a ha => by cases ha⟩
    · refine AddsFrom.alloc _ (fun q hq => ?_) hl hn
      rcases List.mem_append.mp hq with hq | hq
      · exact hg q hq
      · obtain ⟨q', _, rfl⟩ := List.mem_map.mp hq
        intro j hj
        cases hj

theorem lookup_append_left {l l' : List (Name × CVal A)} {m : Name} {v : CVal A} (h : l.lookup m = some v) : (l ++ l').lookup m = some v := by
  induction l with
  | nil => cases h
  | cons q l ih =>
    obtain ⟨k, w⟩ := q
    by_cases hk : m = k
    · subst hk; simpa [List.lookup] using h
    · have hb : (m == k) = false := by simpa using hk
      simp only [List.cons_append, List.lookup, hb] at h ⊢
      exact ih h

theorem lookup_names {f : Name → CVal A → Prop} {ps : List Name} {given : List (Name × CVal A)} (h : List.Forall₂ (fun p q => q.1 = p ∧ f p q.2) ps given) {m : Name} (hm : m ∈ ps) :
    ∃ w, given.lookup m = some w ∧ f m w := by
  induction h with
  | nil => cases hm
  | @cons p q ps given hq _ ih =>
    obtain ⟨k, w⟩ := q
    obtain ⟨rfl, hf⟩ := hq
    by_cases hk : m = k
    · subst hk
      exact ⟨w, by simp [List.lookup], hf⟩
    · have hb : (m == k) = false := by simpa using hk
      obtain ⟨w', h1, h2⟩ := ih (by rcases List.mem_cons.mp hm with h | h; exact absurd h hk; exact h)
      exact ⟨w', by simp [List.lookup, hb, h1], h2⟩

theorem cloneVal_adds (T : Name → ClassInfo A) (n : Nat) : ∀ (k : Nat) (v : CVal A) (h : CHeap A), n ≤ h.length →
    AddsFrom n (cloneVal T k v) h fun h' w => CopyOf T n h v h' w := by
  intro k
  induction k with
  | zero =>
    intro v h _
    cases v with
    | atom a => exact AddsFrom.ret _ (CopyOf.atom T n h a)
    | none => exact AddsFrom.ret _ (CopyOf.none T n h)
    | ref i => exact AddsFrom.raise _ _
  | succ k ih =>
    intro v h hl
    cases v with
    | atom a => exact AddsFrom.ret _ (CopyOf.atom T n h a)
    | none => exact AddsFrom.ret _ (CopyOf.none T n h)
    | ref i =>
      unfold cloneVal
      refine AddsFrom.bind (AddsFrom.object i) fun l0 o _ ⟨h1, ho⟩ => ?_
      rw [h1]
      cases hp : (T o.cls).params with
      | none => exact deepcopy_adds T n (k + 1) (.ref i) h hl
      | some ps =>
        dsimp only
        have heach := AddsFrom.each (n := n) (h0 := h) (fun p : Name => match o.attr p with
            | none => CM.raise .attributeError
            | some v => (cloneVal T k v).bind fun w => CM.ret (p, w))
          (fun h' p q' => q'.1 = p ∧ ∃ v, o.attr p = some v ∧ CopyOf T n h v h' q'.2)
          (fun l l' a b hn ⟨h1, v, h2, h3⟩ => ⟨h1, v, h2, h3.mono hl hn⟩) ps
          (fun p _ l hn => by
            cases hv : o.attr p with
            | none => exact AddsFrom.raise _ _
            | some v =>
              exact AddsFrom.bind (ih v (h ++ l) (by rw [List.length_append]; omega)) fun l1 w hn1 hw =>
                AddsFrom.ret _ ⟨rfl, v, rfl, hw.base hl hn⟩) []
        rw [List.append_nil] at heach
        refine AddsFrom.bind heach fun l given hn hF => ?_
        have hrefs : ∀ q ∈ given, NewVal n (h ++ l) q.2 := by
          intro q hq
          obtain ⟨q0, _, hq0⟩ := forall₂_right hF hq
          obtain ⟨_, v, _, h4⟩ := hq0
          exact h4.1
        refine AddsFrom.bind (construct_adds T n _ o.cls given hrefs) fun l2 j _ ⟨h2, hj⟩ => AddsFrom.ret _ ?_
        rw [h2]
        subst hj
        refine copy_object T hl hn ho rfl (by simp [settings, hp]) fun m hm => .inr ?_
        have hm' : m ∈ ps := by simpa [settings, hp] using hm
        obtain ⟨w, hw1, v, hw2, hw3⟩ := lookup_names (f := fun p w => ∃ v, o.attr p = some v ∧ CopyOf T n h v (h ++ l) w) hF hm'
        exact ⟨v, w, hw2, lookup_append_left hw1, hw3⟩

theorem cloneTop_adds (T : Name → ClassInfo A) (n k : Nat) (v : CVal A) (h : CHeap A) (hl : n ≤ h.length) :
    AddsFrom n (cloneTop T k v) h fun h' j => CopyOf T n h v h' (.ref j) := by
  unfold cloneTop
  cases v with
  | atom a => exact AddsFrom.raise _ _
  | none => exact AddsFrom.raise _ _
  | ref i =>
    refine AddsFrom.bind (AddsFrom.object i) fun l0 o _ ⟨h1, ho⟩ => ?_
    rw [h1]
    cases (T o.cls).params with
    | none => exact AddsFrom.raise _ _
    | some ps =>
      refine AddsFrom.bind (cloneVal_adds T n k (.ref i) h hl) fun l w hn hw => ?_
      cases w with
      | ref j => exact AddsFrom.ret _ hw
      | atom a => exact AddsFrom.raise _ _
      | none => exact AddsFrom.raise _ _

end Comp

end Suprb
