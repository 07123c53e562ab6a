import Verif.Model.Objects
import Verif.Lemmas.ES
import Verif.Lemmas.Rule

/-! Lemmas about the heap of rule objects. -/

set_option autoImplicit false
set_option linter.unusedSectionVars false

namespace Suprb

open Spec

variable {K : Type} [Field K] [LinearOrder K] {d : Nat} {M : Type}

/-- Addresses are in range, no two rule objects share the array of their conditions, and no condition is stored in an array that is used as input space or as one of the fixed
arrays `F`. -/
structure HInv (F : List Nat) (h : RHeap K d M) : Prop where
  bound : ∀ (i : Nat) (o : RuleObj K M), h.objs[i]? = some o → o.boundsAt < h.arrays.length ∧ o.spaceAt < h.arrays.length
  fixed : ∀ a ∈ F, a < h.arrays.length
  own : ∀ (i j : Nat) (o o' : RuleObj K M), h.objs[i]? = some o → h.objs[j]? = some o' → o.boundsAt = o'.boundsAt → i = j
  space : ∀ (i j : Nat) (o o' : RuleObj K M), h.objs[i]? = some o → h.objs[j]? = some o' → o.boundsAt ≠ o'.spaceAt
  fb : ∀ (i : Nat) (o : RuleObj K M), h.objs[i]? = some o → o.boundsAt ∉ F

/-- `h'` comes after `h`: no object was removed, the fixed arrays and what is seen of the first `n` objects are the same. -/
structure KeepsObjs (F : List Nat) (n : Nat) (h h' : RHeap K d M) : Prop where
  inv : HInv F h'
  len : h.objs.length ≤ h'.objs.length
  fixed : ∀ a ∈ F, h'.arrays[a]? = h.arrays[a]?
  same : ∀ s < n, h'.view s = h.view s

theorem KeepsObjs.refl {F : List Nat} {n : Nat} {h : RHeap K d M} (hi : HInv F h) : KeepsObjs F n h h := ⟨hi, le_refl _, fun _ _ => rfl, fun _ _ => rfl⟩

theorem KeepsObjs.trans {F : List Nat} {n : Nat} {h h' h'' : RHeap K d M} (a : KeepsObjs F n h h') (b : KeepsObjs F n h' h'') : KeepsObjs F n h h'' :=
  ⟨b.inv, a.len.trans b.len, fun x hx => (b.fixed x hx).trans (a.fixed x hx), fun s hs => (b.same s hs).trans (a.same s hs)⟩

theorem KeepsObjs.mono {F : List Nat} {n m : Nat} {h h' : RHeap K d M} (a : KeepsObjs F n h h') (hm : m ≤ n) : KeepsObjs F m h h' :=
  ⟨a.inv, a.len, a.fixed, fun s hs => a.same s (lt_of_lt_of_le hs hm)⟩

theorem view_congr (h h' : RHeap K d M) (s : Nat) (ho : h'.objs[s]? = h.objs[s]?)
    (ha : ∀ o : RuleObj K M, h.objs[s]? = some o → h'.arrays[o.boundsAt]? = h.arrays[o.boundsAt]? ∧ h'.arrays[o.spaceAt]? = h.arrays[o.spaceAt]?) : h'.view s = h.view s := by
  unfold RHeap.view
  rw [ho]
  cases hs : h.objs[s]? with
  | none => rfl
  | some o =>
    dsimp only
    rw [(ha o hs).1, (ha o hs).2]

/-- An object that exists can be read. -/
theorem view_some {F : List Nat} {h : RHeap K d M} (hi : HInv F h) {r : Nat} (hr : r < h.objs.length) :
    ∃ o b s, h.objs[r]? = some o ∧ h.arrays[o.boundsAt]? = some b ∧ h.arrays[o.spaceAt]? = some s ∧
      h.view r = some { kind := o.kind, bounds := b, inputSpace := s, model := o.model, st := o.st } := by
  have ho : h.objs[r]? = some h.objs[r] := List.getElem?_eq_getElem hr
  obtain ⟨h1, h2⟩ := hi.bound r _ ho
  have e1 := List.getElem?_eq_getElem h1
  have e2 := List.getElem?_eq_getElem h2
  refine ⟨_, _, _, ho, e1, e2, ?_⟩
  unfold RHeap.view
  rw [ho]
  dsimp only
  rw [e1, e2]

theorem lt_of_view {h : RHeap K d M} {r : Nat} {ρ : Rule K d M} (hv : h.view r = some ρ) : r < h.objs.length := by
  unfold RHeap.view at hv
  cases ho : h.objs[r]? with
  | none => rw [ho] at hv; cases hv
  | some o => exact (List.getElem?_eq_some_iff.mp ho).1

/-- A place for the input space of a new object. -/
def SpaceOk (h : RHeap K d M) (a : Nat) : Prop := a < h.arrays.length ∧ ∀ (i : Nat) (o : RuleObj K M), h.objs[i]? = some o → o.boundsAt ≠ a

theorem spaceOk_fixed {F : List Nat} {h : RHeap K d M} (hi : HInv F h) {a : Nat} (ha : a ∈ F) : SpaceOk h a :=
  ⟨hi.fixed a ha, fun i o ho e => hi.fb i o ho (e ▸ ha)⟩

/-- Adding arrays and one object whose condition is in a new array. -/
theorem keeps_add {F : List Nat} {h : RHeap K d M} (hi : HInv F h) (o : RuleObj K M) (as : List (Pairs K d))
    (hb1 : h.arrays.length ≤ o.boundsAt) (hb2 : o.boundsAt < h.arrays.length + as.length) (hs : o.spaceAt < h.arrays.length + as.length) (hne : o.boundsAt ≠ o.spaceAt)
    (hso : ∀ (i : Nat) (o' : RuleObj K M), h.objs[i]? = some o' → o'.boundsAt ≠ o.spaceAt) :
    KeepsObjs F h.objs.length h { arrays := h.arrays ++ as, objs := h.objs ++ [o] } := by
  have hget : ∀ (i : Nat) (x : RuleObj K M), (h.objs ++ [o])[i]? = some x → h.objs[i]? = some x ∨ (i = h.objs.length ∧ x = o) := by
    intro i x hx
    rcases lt_trichotomy i h.objs.length with hlt | heq | hgt
    · rw [List.getElem?_append_left hlt] at hx; exact .inl hx
    · subst heq
      rw [List.getElem?_append_right (le_refl _), Nat.sub_self] at hx
      exact .inr ⟨rfl, (Option.some.inj hx).symm⟩
    · rw [List.getElem?_append_right (le_of_lt hgt)] at hx
      obtain ⟨m, hm⟩ : ∃ m, i - h.objs.length = m + 1 := ⟨i - h.objs.length - 1, by omega⟩
      rw [hm] at hx; simp at hx
  refine ⟨⟨?_, ?_, ?_, ?_, ?_⟩, by simp, ?_, ?_⟩
  · intro i x hx
    dsimp only
    rw [List.length_append]
    rcases hget i x hx with h1 | ⟨-, rfl⟩
    · have := hi.bound i x h1; omega
    · omega
  · intro a ha
    dsimp only
    rw [List.length_append]
    have := hi.fixed a ha; omega
  · intro i j x x' hx hx' e
    rcases hget i x hx with h1 | ⟨rfl, rfl⟩ <;> rcases hget j x' hx' with h2 | ⟨rfl, rfl⟩
    · exact hi.own i j x x' h1 h2 e
    · have := (hi.bound i x h1).1; omega
    · have := (hi.bound j x' h2).1; omega
    · rfl
  · intro i j x x' hx hx'
    rcases hget i x hx with h1 | ⟨rfl, rfl⟩ <;> rcases hget j x' hx' with h2 | ⟨rfl, rfl⟩
    · exact hi.space i j x x' h1 h2
    · exact hso i x h1
    · have := (hi.bound j x' h2).2; omega
    · exact hne
  · intro i x hx
    rcases hget i x hx with h1 | ⟨rfl, rfl⟩
    · exact hi.fb i x h1
    · intro hm; have := hi.fixed _ hm; omega
  · intro a ha
    exact List.getElem?_append_left (hi.fixed a ha)
  · intro s hs'
    apply view_congr
    · exact List.getElem?_append_left hs'
    · intro x hx
      exact ⟨List.getElem?_append_left (hi.bound s x hx).1, List.getElem?_append_left (hi.bound s x hx).2⟩

theorem hNewRule_spec {F : List Nat} {h : RHeap K d M} (hi : HInv F h) (k : Kind) (b : Pairs K d) (a : Nat) (ha : SpaceOk h a) (sp : Pairs K d) (hsp : h.arrays[a]? = some sp) :
    ∃ h', hNewRule (M := M) k b a h = (h', .ok h.objs.length) ∧ KeepsObjs F h.objs.length h h' ∧ h'.view h.objs.length = some { kind := k, bounds := b, inputSpace := sp } := by
  refine ⟨_, rfl, keeps_add hi _ [b] (le_refl _) (by simp) (by have := ha.1; simp only [List.length_singleton]; omega) (by have := ha.1; dsimp only; omega) (fun i o ho => ha.2 i o ho), ?_⟩
  unfold RHeap.view
  dsimp only
  rw [List.getElem?_append_right (le_refl _), Nat.sub_self]
  simp only [List.getElem?_cons_zero]
  rw [List.getElem?_append_right (le_refl _), Nat.sub_self, List.getElem?_append_left ha.1, hsp]
  rfl

theorem hClone_spec {F : List Nat} {h : RHeap K d M} (hi : HInv F h) {r : Nat} {ρ : Rule K d M} (hv : h.view r = some ρ) :
    ∃ h', hClone r h = (h', .ok h.objs.length) ∧ KeepsObjs F h.objs.length h h' ∧ h'.view h.objs.length = some ρ.clone := by
  obtain ⟨o, b, s, ho, hb, hs, hv'⟩ := view_some hi (lt_of_view hv)
  rw [hv] at hv'
  obtain rfl := Option.some.inj hv'
  obtain ⟨h', e, hk, hw⟩ := hNewRule_spec hi o.kind b o.spaceAt ⟨(hi.bound r o ho).2, fun i o' ho' => hi.space i r o' o ho' ho⟩ s hs
  refine ⟨h', ?_, hk, hw⟩
  unfold hClone
  rw [ho, hv]
  exact e

theorem hDeepcopy_spec {F : List Nat} {h : RHeap K d M} (hi : HInv F h) {r : Nat} {ρ : Rule K d M} (hv : h.view r = some ρ) :
    ∃ h', hDeepcopy r h = (h', .ok h.objs.length) ∧ KeepsObjs F h.objs.length h h' ∧ h'.view h.objs.length = some ρ := by
  obtain ⟨o, b, s, ho, hb, hs, hv'⟩ := view_some hi (lt_of_view hv)
  rw [hv] at hv'
  obtain rfl := Option.some.inj hv'
  refine ⟨{ arrays := h.arrays ++ [b, s], objs := h.objs ++ [{ o with boundsAt := h.arrays.length, spaceAt := h.arrays.length + 1 }] }, ?_,
    keeps_add hi _ [b, s] (le_refl _) (by simp) (by simp) (by simp) ?_, ?_⟩
  · unfold hDeepcopy
    rw [ho, hv]
  · intro i o' ho'
    have := (hi.bound i o' ho').1
    dsimp only; omega
  · unfold RHeap.view
    dsimp only
    rw [List.getElem?_append_right (le_refl _), Nat.sub_self]
    simp only [List.getElem?_cons_zero]
    rw [List.getElem?_append_right (le_refl _), Nat.sub_self, List.getElem?_append_right (by omega)]
    simp

/-- Writing into the condition of an object changes what is seen of this object only. -/
theorem hWrite_spec {F : List Nat} {h : RHeap K d M} (hi : HInv F h) {r : Nat} {ρ : Rule K d M} (hv : h.view r = some ρ) (b : Pairs K d) :
    ∃ h', hWrite r b h = (h', .ok ()) ∧ KeepsObjs F r h h' ∧ (∀ s, s ≠ r → h'.view s = h.view s) ∧ h'.view r = some { ρ with bounds := b } := by
  obtain ⟨o, b0, sp, ho, hb, hs, hv'⟩ := view_some hi (lt_of_view hv)
  rw [hv] at hv'
  obtain rfl := Option.some.inj hv'
  have hother : ∀ s, s ≠ r → RHeap.view { h with arrays := h.arrays.set o.boundsAt b } s = h.view s := by
    intro s hsr
    apply view_congr
    · rfl
    · intro x hx
      constructor
      · exact List.getElem?_set_ne fun e => hsr (hi.own s r x o hx ho e.symm)
      · exact List.getElem?_set_ne fun e => hi.space r s o x ho hx e
  refine ⟨{ h with arrays := h.arrays.set o.boundsAt b }, ?_, ⟨⟨?_, ?_, hi.own, hi.space, hi.fb⟩, le_refl _, ?_, fun s hs' => hother s (ne_of_lt hs')⟩, hother, ?_⟩
  · unfold hWrite; rw [ho]
  · intro i x hx; dsimp only; rw [List.length_set]; exact hi.bound i x hx
  · intro a ha; dsimp only; rw [List.length_set]; exact hi.fixed a ha
  · intro a ha
    exact List.getElem?_set_ne fun (e : o.boundsAt = a) => hi.fb r o ho (e.symm ▸ ha)
  · unfold RHeap.view
    dsimp only
    rw [ho]
    dsimp only
    rw [List.getElem?_set_self (hi.bound r o ho).1, List.getElem?_set_ne (hi.space r r o o ho ho), hs]

theorem hAssign_spec {F : List Nat} {h : RHeap K d M} (hi : HInv F h) {r : Nat} {ρ : Rule K d M} (hv : h.view r = some ρ) (b : Pairs K d) :
    ∃ h', hAssign r b h = (h', .ok ()) ∧ KeepsObjs F r h h' ∧ (∀ s, s ≠ r → h'.view s = h.view s) ∧ h'.view r = some { ρ with bounds := b } := by
  obtain ⟨o, b0, sp, ho, hb, hs, hv'⟩ := view_some hi (lt_of_view hv)
  rw [hv] at hv'
  obtain rfl := Option.some.inj hv'
  set h' : RHeap K d M := { arrays := h.arrays ++ [b], objs := h.objs.modify r fun o => { o with boundsAt := h.arrays.length } } with hh'
  have hget : ∀ (i : Nat) (x : RuleObj K M), h'.objs[i]? = some x → (i ≠ r ∧ h.objs[i]? = some x) ∨ (i = r ∧ x = { o with boundsAt := h.arrays.length }) := by
    intro i x hx
    rw [hh'] at hx
    dsimp only at hx
    rw [List.getElem?_modify] at hx
    by_cases e : i = r
    · subst e
      right
      rw [ho] at hx
      simp at hx
      exact ⟨rfl, hx.symm⟩
    · left
      simp only [if_neg (Ne.symm e)] at hx
      exact ⟨e, by simpa using hx⟩
  have hother : ∀ s, s ≠ r → h'.view s = h.view s := by
    intro s hsr
    apply view_congr
    · rw [hh']
      dsimp only
      rw [List.getElem?_modify]
      simp [if_neg (Ne.symm hsr)]
    · intro x hx
      exact ⟨List.getElem?_append_left (hi.bound s x hx).1, List.getElem?_append_left (hi.bound s x hx).2⟩
  refine ⟨h', ?_, ⟨⟨?_, ?_, ?_, ?_, ?_⟩, ?_, ?_, fun s hs' => hother s (ne_of_lt hs')⟩, hother, ?_⟩
  · unfold hAssign; rw [ho]
  · intro i x hx
    have hl : h'.arrays.length = h.arrays.length + 1 := by rw [hh']; simp
    rw [hl]
    rcases hget i x hx with ⟨-, h1⟩ | ⟨-, rfl⟩
    · have := hi.bound i x h1; omega
    · have := hi.bound r o ho; dsimp only; omega
  · intro a ha
    have hl : h'.arrays.length = h.arrays.length + 1 := by rw [hh']; simp
    have := hi.fixed a ha; omega
  · intro i j x x' hx hx' e
    rcases hget i x hx with ⟨-, h1⟩ | ⟨rfl, rfl⟩ <;> rcases hget j x' hx' with ⟨-, h2⟩ | ⟨rfl, rfl⟩
    · exact hi.own i j x x' h1 h2 e
    · have := (hi.bound i x h1).1; dsimp only at e; omega
    · have := (hi.bound j x' h2).1; dsimp only at e; omega
    · rfl
  · intro i j x x' hx hx'
    rcases hget i x hx with ⟨-, h1⟩ | ⟨rfl, rfl⟩ <;> rcases hget j x' hx' with ⟨-, h2⟩ | ⟨rfl, rfl⟩
    · exact hi.space i j x x' h1 h2
    · exact hi.space i _ x o h1 ho
    · have := (hi.bound j x' h2).2; dsimp only; omega
    · have := (hi.bound _ o ho).2; dsimp only; omega
  · intro i x hx
    rcases hget i x hx with ⟨-, h1⟩ | ⟨rfl, rfl⟩
    · exact hi.fb i x h1
    · intro hm; have := hi.fixed _ hm; dsimp only at this; omega
  · rw [hh']; simp
  · intro a ha
    exact List.getElem?_append_left (hi.fixed a ha)
  · unfold RHeap.view
    rw [hh']
    dsimp only
    rw [List.getElem?_modify, ho]
    simp only [if_true, Option.map_eq_map, Option.map_some]
    rw [List.getElem?_append_right (le_refl _), Nat.sub_self, List.getElem?_append_left (hi.bound r o ho).2, hs]
    rfl

/-- Setting the fitted attributes of an object. -/
theorem keeps_attr {F : List Nat} {h : RHeap K d M} (hi : HInv F h) {r : Nat} {ρ : Rule K d M} (hv : h.view r = some ρ) (m : Option M) (st : Option (RuleState K)) :
    KeepsObjs F r h { h with objs := h.objs.modify r fun o => { o with model := m, st := st } } ∧
      (∀ s, s ≠ r → RHeap.view { h with objs := h.objs.modify r fun o => { o with model := m, st := st } } s = h.view s) ∧
      RHeap.view { h with objs := h.objs.modify r fun o => { o with model := m, st := st } } r = some { ρ with model := m, st := st } := by
  obtain ⟨o, b0, sp, ho, hb, hs, hv'⟩ := view_some hi (lt_of_view hv)
  rw [hv] at hv'
  obtain rfl := Option.some.inj hv'
  have hget : ∀ (i : Nat) (x : RuleObj K M), (h.objs.modify r fun o => { o with model := m, st := st })[i]? = some x → ∃ x' : RuleObj K M, h.objs[i]? = some x' ∧ x.boundsAt = x'.boundsAt ∧ x.spaceAt = x'.spaceAt := by
    intro i x hx
    rw [List.getElem?_modify] at hx
    cases hx' : h.objs[i]? with
    | none => rw [hx'] at hx; simp at hx
    | some x' =>
      rw [hx'] at hx
      refine ⟨x', rfl, ?_⟩
      by_cases e : r = i
      · simp [if_pos e] at hx; subst hx; exact ⟨rfl, rfl⟩
      · simp [if_neg e] at hx; subst hx; exact ⟨rfl, rfl⟩
  have hother : ∀ s, s ≠ r → RHeap.view { h with objs := h.objs.modify r fun o => { o with model := m, st := st } } s = h.view s := by
    intro s hsr
    apply view_congr
    · dsimp only
      rw [List.getElem?_modify]
      simp [if_neg (Ne.symm hsr)]
    · intro x hx; exact ⟨rfl, rfl⟩
  refine ⟨⟨⟨?_, hi.fixed, ?_, ?_, ?_⟩, by simp, fun _ _ => rfl, fun s hs' => hother s (ne_of_lt hs')⟩, hother, ?_⟩
  · intro i x hx
    obtain ⟨x', h1, e1, e2⟩ := hget i x hx
    rw [e1, e2]; exact hi.bound i x' h1
  · intro i j x y hx hy e
    obtain ⟨x', h1, e1, e2⟩ := hget i x hx
    obtain ⟨y', h2, e3, e4⟩ := hget j y hy
    exact hi.own i j x' y' h1 h2 (e1 ▸ e3 ▸ e)
  · intro i j x y hx hy
    obtain ⟨x', h1, e1, e2⟩ := hget i x hx
    obtain ⟨y', h2, e3, e4⟩ := hget j y hy
    rw [e1, e4]; exact hi.space i j x' y' h1 h2
  · intro i x hx
    obtain ⟨x', h1, e1, e2⟩ := hget i x hx
    rw [e1]; exact hi.fb i x' h1
  · unfold RHeap.view
    dsimp only
    rw [List.getElem?_modify, ho]
    simp only [if_true, Option.map_eq_map, Option.map_some]
    rw [hb, hs]

/-- What an execution on the heap has to do with a computation on values: the heap only grows beyond the first `n` objects, both end with the same exception or with related
results. -/
def Sim {α β : Type} (F : List Nat) (n : Nat) (h : RHeap K d M) (out : RHeap K d M × Except PyErr α) (v : Except PyErr β) (R : RHeap K d M → α → β → Prop) : Prop :=
  KeepsObjs F n h out.1 ∧ match out.2, v with
    | .ok a, .ok b => R out.1 a b
    | .error e, .error e' => e = e'
    | _, _ => False

theorem Sim.ok {α β : Type} {F : List Nat} {n : Nat} {h h' : RHeap K d M} {a : α} {b : β} {R : RHeap K d M → α → β → Prop} (hk : KeepsObjs F n h h') (hR : R h' a b) :
    Sim F n h (h', .ok a) (.ok b) R := ⟨hk, hR⟩

theorem Sim.err {α β : Type} {F : List Nat} {n : Nat} {h h' : RHeap K d M} {e : PyErr} {R : RHeap K d M → α → β → Prop} (hk : KeepsObjs F n h h') :
    Sim F n h (h', (.error e : Except PyErr α)) (.error e : Except PyErr β) R := ⟨hk, rfl⟩

theorem Sim.mono {α β : Type} {F : List Nat} {n m : Nat} {h : RHeap K d M} {out : RHeap K d M × Except PyErr α} {v : Except PyErr β} {R R' : RHeap K d M → α → β → Prop}
    (hs : Sim F n h out v R) (hm : m ≤ n) (hR : ∀ h' a b, KeepsObjs F n h h' → R h' a b → R' h' a b) : Sim F m h out v R' := by
  obtain ⟨hk, hr⟩ := hs
  refine ⟨hk.mono hm, ?_⟩
  obtain ⟨h', r⟩ := out
  cases r <;> cases v
  · exact hr
  · exact hr
  · exact hr
  · exact hR _ _ _ hk hr

/-- Sequencing, with the bind of `Except` on the side of the values. -/
theorem Sim.bind {α β γ δ : Type} {F : List Nat} {n : Nat} {h : RHeap K d M} {m : HM K d M α} {f : α → HM K d M γ} {v : Except PyErr β} {g : β → Except PyErr δ}
    {R : RHeap K d M → α → β → Prop} {R' : RHeap K d M → γ → δ → Prop} (h1 : Sim F n h (m h) v R)
    (h2 : ∀ h' a b, KeepsObjs F n h h' → R h' a b → Sim F n h' (f a h') (g b) R') :
    Sim F n h (m.bind f h) (v.bind g) R' := by
  obtain ⟨hk, hr⟩ := h1
  unfold HM.bind
  revert hk hr
  generalize m h = out
  obtain ⟨h', r⟩ := out
  intro hk hr
  cases r <;> cases v
  · exact ⟨hk, hr⟩
  · exact hr.elim
  · exact hr.elim
  · obtain ⟨hk', hr'⟩ := h2 h' _ _ hk hr
    exact ⟨hk.trans hk', hr'⟩

theorem Sim.elim {α β : Type} {F : List Nat} {n : Nat} {h : RHeap K d M} {out : RHeap K d M × Except PyErr α} {v : Except PyErr β} {R : RHeap K d M → α → β → Prop}
    (hs : Sim F n h out v R) : (∀ e, v = .error e → out.2 = .error e) ∧ ∀ b, v = .ok b → ∃ a, out.2 = .ok a ∧ R out.1 a b := by
  obtain ⟨hk, hr⟩ := hs
  obtain ⟨h', r⟩ := out
  cases r with
  | error e => cases v with
    | error e' =>
      refine ⟨fun x hx => ?_, fun b hb => ?_⟩
      · have h1 : e = e' := hr
        have h2 : e' = x := Except.error.inj hx
        subst h1 h2
        rfl
      · cases hb
    | ok b => exact hr.elim
  | ok a => cases v with
    | error e' => exact hr.elim
    | ok b =>
      refine ⟨fun x hx => ?_, fun b' hb => ⟨a, rfl, ?_⟩⟩
      · cases hx
      · rw [← Except.ok.inj hb]; exact hr

/-! ## Operations -/

theorem mutateInPlace_spec (m : Mutation) (k : Kind) (z b : Pairs K d) :
    mutate m k z b = match mutateInPlace m k z b with
      | .error e => .error e
      | .ok b' => .ok (if k = .ordered then sortRows b' else b') := by
  cases m <;> cases k <;> rfl

theorem hExecute_spec {F : List Nat} {h : RHeap K d M} (hi : HInv F h) {r : Nat} {ρ : Rule K d M} (hv : h.view r = some ρ) (m : Mutation) (z : Pairs K d) :
    Sim F r h (hExecute m z r h) (mutate m ρ.kind z ρ.bounds) fun h' _ b => h'.view r = some { ρ with bounds := b } := by
  unfold hExecute
  rw [hv, mutateInPlace_spec]
  dsimp only
  cases mutateInPlace m ρ.kind z ρ.bounds with
  | error e => exact Sim.err (KeepsObjs.refl hi)
  | ok b =>
    dsimp only
    obtain ⟨h1, e1, k1, -, v1⟩ := hWrite_spec hi hv b
    unfold HM.bind
    rw [e1]
    dsimp only
    obtain ⟨kind, b0, sp, mo, st⟩ := ρ
    cases kind with
    | ordered =>
      obtain ⟨h2, e2, k2, -, v2⟩ := hAssign_spec k1.inv v1 (sortRows b)
      dsimp only
      rw [e2]
      exact Sim.ok (k1.trans k2) v2
    | unordered => exact Sim.ok k1 v1
    | centerSpread => exact Sim.ok k1 v1
    | minPercentage => exact Sim.ok k1 v1

theorem hMutate_spec {F : List Nat} {h : RHeap K d M} (hi : HInv F h) {r : Nat} {ρ : Rule K d M} (hv : h.view r = some ρ) (m : Mutation) (z : Pairs K d) :
    Sim F h.objs.length h (hMutate m z r h) (mutate m ρ.kind z ρ.bounds) fun h' c b => c = h.objs.length ∧ h'.view c = some { ρ.clone with bounds := b } := by
  obtain ⟨h1, e1, k1, v1⟩ := hClone_spec hi hv
  obtain ⟨k2, hr⟩ := hExecute_spec k1.inv v1 m z
  unfold hMutate HM.bind
  rw [e1]
  dsimp only
  revert k2 hr
  generalize hExecute m z h.objs.length h1 = out
  obtain ⟨h2, res⟩ := out
  intro k2 hr
  refine ⟨?_, ?_⟩
  · cases res <;> exact k1.trans k2
  · cases hm : mutate m ρ.kind z ρ.bounds with
    | error e =>
      have hm' : mutate m ρ.clone.kind z ρ.clone.bounds = .error e := hm
      rw [hm'] at hr; cases res <;> exact hr
    | ok b =>
      have hm' : mutate m ρ.clone.kind z ρ.clone.bounds = .ok b := hm
      rw [hm'] at hr
      cases res with
      | error e => exact hr
      | ok a => exact ⟨rfl, hr⟩

theorem hConstrain_spec {F : List Nat} {h : RHeap K d M} (hi : HInv F h) {r : Nat} {ρ : Rule K d M} (hv : h.view r = some ρ) (c : K) {a : Nat} (ha : a ∈ F) (fb : Pairs K d)
    (hfb : h.arrays[a]? = some fb) :
    ∃ h', hConstrain c a r h = (h', .ok r) ∧ KeepsObjs F r h h' ∧ h'.view r = some { ρ with bounds := constrain ρ.kind c fb ρ.bounds } := by
  obtain ⟨h1, e1, k1, -, v1⟩ := hWrite_spec hi hv (ρ.kind.minRange c ρ.bounds)
  obtain ⟨h2, e2, k2, -, v2⟩ := hWrite_spec k1.inv v1 (ρ.kind.clip fb (ρ.kind.minRange c ρ.bounds))
  refine ⟨h2, ?_, k1.trans k2, v2⟩
  unfold hConstrain HM.bind
  rw [hv]
  dsimp only
  rw [e1]
  dsimp only
  rw [v1, k1.fixed a ha, hfb]
  dsimp only
  rw [e2]
  rfl

theorem fit_sameShape (L : Learner K d M) (ff : RuleFitness K d) (X : List (Point K d)) (y : List K) (ρ ρ' : Rule K d M) (h : ρ.fit L ff X y = .ok ρ') : ρ.SameShape ρ' := by
  have hrefit : ∀ ms, ρ.refit L ff X y ms = .ok ρ' → ρ.SameShape ρ' := by
    intro ms h
    unfold Rule.refit at h
    split_ifs at h
    obtain rfl := Except.ok.inj h
    exact ⟨rfl, rfl, rfl⟩
  unfold Rule.fit at h
  dsimp only at h
  split_ifs at h
  · obtain rfl := Except.ok.inj h
    exact ⟨rfl, rfl, rfl⟩
  · cases hst : ρ.st with
    | none => rw [hst] at h; exact hrefit _ h
    | some st =>
      rw [hst] at h
      dsimp only at h
      cases he : npEqAll st.matchSet (ρ.matchRows X) with
      | error e => rw [he] at h; cases h
      | ok b =>
        rw [he] at h
        cases b with
        | true =>
          obtain rfl := Except.ok.inj h
          exact ⟨rfl, rfl, rfl⟩
        | false => exact hrefit _ h

theorem hFit_spec {F : List Nat} {h : RHeap K d M} (hi : HInv F h) {r : Nat} {ρ : Rule K d M} (hv : h.view r = some ρ) (L : Learner K d M) (ff : RuleFitness K d)
    (X : List (Point K d)) (y : List K) :
    Sim F r h (hFit L ff X y r h) (Rule.fit L ff X y ρ) fun h' c ρ' => c = r ∧ h'.view c = some ρ' := by
  unfold hFit
  rw [hv]
  dsimp only
  cases hf : Rule.fit L ff X y ρ with
  | error e => exact Sim.err (KeepsObjs.refl hi)
  | ok ρ' =>
    obtain ⟨hk, -, v⟩ := keeps_attr hi hv ρ'.model ρ'.st
    refine Sim.ok hk ⟨rfl, ?_⟩
    rw [v]
    obtain ⟨h1, h2, h3⟩ := fit_sameShape L ff X y ρ ρ' hf
    cases ρ'
    simp only at h1 h2 h3
    subst h1 h2 h3
    rfl

/-- The first `n` objects stay as they are, and a result satisfies `Q`. -/
def Safe {α : Type} (F : List Nat) (n : Nat) (h : RHeap K d M) (out : RHeap K d M × Except PyErr α) (Q : RHeap K d M → α → Prop) : Prop :=
  KeepsObjs F n h out.1 ∧ ∀ a, out.2 = .ok a → Q out.1 a

theorem Sim.safe {α β : Type} {F : List Nat} {n : Nat} {h : RHeap K d M} {out : RHeap K d M × Except PyErr α} {v : Except PyErr β} {R : RHeap K d M → α → β → Prop}
    {Q : RHeap K d M → α → Prop} (hs : Sim F n h out v R) (hQ : ∀ h' a b, KeepsObjs F n h h' → R h' a b → Q h' a) : Safe F n h out Q := by
  obtain ⟨hk, hr⟩ := hs
  obtain ⟨h', r⟩ := out
  refine ⟨hk, fun a ha => ?_⟩
  dsimp only at ha
  subst ha
  cases v with
  | error e => exact hr.elim
  | ok b => exact hQ _ _ _ hk hr

theorem Safe.mono {α : Type} {F : List Nat} {n m : Nat} {h : RHeap K d M} {out : RHeap K d M × Except PyErr α} {Q Q' : RHeap K d M → α → Prop} (hs : Safe F n h out Q) (hm : m ≤ n)
    (hQ : ∀ h' a, KeepsObjs F n h h' → Q h' a → Q' h' a) : Safe F m h out Q' := ⟨hs.1.mono hm, fun a ha => hQ _ _ hs.1 (hs.2 a ha)⟩

theorem Safe.bind {α β : Type} {F : List Nat} {n : Nat} {h : RHeap K d M} {m : HM K d M α} {f : α → HM K d M β} {Q : RHeap K d M → α → Prop} {Q' : RHeap K d M → β → Prop}
    (h1 : Safe F n h (m h) Q) (h2 : ∀ h' a, KeepsObjs F n h h' → Q h' a → Safe F n h' (f a h') Q') : Safe F n h (m.bind f h) Q' := by
  obtain ⟨hk, hr⟩ := h1
  unfold HM.bind
  revert hk hr
  generalize m h = out
  obtain ⟨h', r⟩ := out
  intro hk hr
  cases r with
  | error e => exact ⟨hk, fun a ha => by cases ha⟩
  | ok a =>
    obtain ⟨hk', hr'⟩ := h2 h' a hk (hr a rfl)
    exact ⟨hk.trans hk', hr'⟩

theorem Safe.ret {α : Type} {F : List Nat} {n : Nat} {h : RHeap K d M} {Q : RHeap K d M → α → Prop} (hi : HInv F h) (a : α) (hQ : Q h a) : Safe F n h (HM.ret a h) Q :=
  ⟨KeepsObjs.refl hi, fun b hb => by cases hb; exact hQ⟩

theorem Safe.reads {α : Type} {F : List Nat} {n : Nat} {h : RHeap K d M} {Q : RHeap K d M → α → Prop} (hi : HInv F h) (f : RHeap K d M → Except PyErr α)
    (hQ : ∀ a, f h = .ok a → Q h a) : Safe F n h (HM.reads f h) Q := ⟨KeepsObjs.refl hi, hQ⟩

/-- A list of executions, each of which returns a new object or the object that belongs to it: the results are different objects. -/
theorem each_sim {α α' β : Type} {F : List Nat} (own : α → Option Nat) (C : RHeap K d M → α → α' → Prop) (hC : ∀ h h' a a', KeepsObjs F h.objs.length h h' → C h a a' → C h' a a')
    (f : α → HM K d M Nat) (g : α' → Except PyErr β) (R : RHeap K d M → Nat → β → Prop) (hR : ∀ h h' c b, KeepsObjs F h.objs.length h h' → R h c b → R h' c b)
    (hRl : ∀ h c b, R h c b → c < h.objs.length)
    (hf : ∀ h a a', HInv F h → C h a a' → Sim F h.objs.length h (f a h) (g a') fun h' c b => R h' c b ∧ (own a = some c ∨ h.objs.length ≤ c)) :
    ∀ (l : List α) (l' : List α') (h : RHeap K d M), HInv F h → List.Forall₂ (C h) l l' → (∀ a ∈ l, ∀ x, own a = some x → x < h.objs.length) →
      (l.Pairwise fun a b => ∀ x, own a = some x → own b ≠ some x) →
      Sim F h.objs.length h (HM.each f l h) (l'.mapM g) fun h' cs bs => List.Forall₂ (R h') cs bs ∧ cs.Nodup ∧ ∀ c ∈ cs, (∃ a ∈ l, own a = some c) ∨ h.objs.length ≤ c := by
  intro l
  induction l with
  | nil =>
    intro l' h hi hl _ _
    cases hl
    exact Sim.ok (KeepsObjs.refl hi) ⟨.nil, List.nodup_nil, fun c hc => absurd hc List.not_mem_nil⟩
  | cons a l ih =>
    intro l' h hi hl hown hpw
    cases hl with
    | @cons _ a' _ l' hCa hCl =>
      rw [List.mapM_cons]
      refine Sim.bind (m := f a) (v := g a') (hf h a a' hi hCa) fun h' c b hk hRb => ?_
      have h2 := ih l' h' hk.inv (hCl.imp fun x x' hx => hC _ _ _ _ hk hx) (fun x hx y hy => lt_of_lt_of_le (hown x (List.mem_cons_of_mem _ hx) y hy) hk.len) (List.pairwise_cons.mp hpw).2
      refine Sim.bind (m := HM.each f l) (v := l'.mapM g) (h2.mono (m := h.objs.length) hk.len fun h'' cs bs hk' hx => (⟨hk', hx⟩ : KeepsObjs F h'.objs.length h' h'' ∧ _)) fun h'' cs bs hk' hRbs => ?_
      obtain ⟨hk'', hR', hnd, hmem⟩ := hRbs
      have hcl : c < h'.objs.length := hRl _ _ _ hRb.1
      refine Sim.ok (KeepsObjs.refl hk'.inv) ⟨.cons (hR _ _ _ _ hk'' hRb.1) hR', List.nodup_cons.mpr ⟨fun hc => ?_, hnd⟩, fun x hx => ?_⟩
      · rcases hmem c hc with ⟨x, hx, hxc⟩ | hge
        · rcases hRb.2 with hown' | hge
          · exact (List.pairwise_cons.mp hpw).1 x hx c hown' hxc
          · exact absurd (hown x (List.mem_cons_of_mem _ hx) c hxc) (not_lt.mpr hge)
        · omega
      · rcases List.mem_cons.mp hx with rfl | hx
        · rcases hRb.2 with hown' | hge
          · exact .inl ⟨a, List.mem_cons_self, hown'⟩
          · exact .inr hge
        · rcases hmem x hx with ⟨z, hz, hzc⟩ | hge
          · exact .inl ⟨z, List.mem_cons_of_mem _ hz, hzc⟩
          · exact .inr (hk.len.trans hge)

/-- A list of executions, each of which returns new objects only. -/
theorem each_safe {α β : Type} {F : List Nat} (refs : β → List Nat) (C : RHeap K d M → α → Prop) (hC : ∀ h h' a, KeepsObjs F h.objs.length h h' → C h a → C h' a) (f : α → HM K d M β)
    (hf : ∀ h a, HInv F h → C h a → Safe F h.objs.length h (f a h) fun h' b => (refs b).Nodup ∧ ∀ c ∈ refs b, h.objs.length ≤ c ∧ c < h'.objs.length) :
    ∀ (l : List α) (h : RHeap K d M), HInv F h → (∀ a ∈ l, C h a) →
      Safe F h.objs.length h (HM.each f l h) fun h' bs => (bs.flatMap refs).Nodup ∧ ∀ c ∈ bs.flatMap refs, h.objs.length ≤ c ∧ c < h'.objs.length := by
  intro l
  induction l with
  | nil => intro h hi _; exact Safe.ret hi [] ⟨List.nodup_nil, fun c hc => absurd hc List.not_mem_nil⟩
  | cons a l ih =>
    intro h hi hl
    refine Safe.bind (hf h a hi (hl a List.mem_cons_self)) fun h' b hk hb => ?_
    have h2 := ih h' hk.inv fun x hx => hC _ _ _ hk (hl x (List.mem_cons_of_mem _ hx))
    refine Safe.bind (h2.mono (m := h.objs.length) hk.len fun h'' bs hk' hx => (⟨hk'.len, hx⟩ : h'.objs.length ≤ h''.objs.length ∧ _)) fun h'' bs hk' hbs => ?_
    obtain ⟨hlen, hnd, hmem⟩ := hbs
    refine Safe.ret hk'.inv _ ⟨?_, ?_⟩
    · rw [List.flatMap_cons, List.nodup_append]
      refine ⟨hb.1, hnd, fun x hx y hy => ?_⟩
      have h3 := (hb.2 x hx).2
      have h4 := (hmem y hy).1
      omega
    · intro c hc
      rw [List.flatMap_cons] at hc
      rcases List.mem_append.mp hc with hc | hc
      · have := hb.2 c hc; omega
      · have := hmem c hc
        have := hk.len
        omega

theorem filterInvalid_sublist {R : Type} (accept : R → Except PyErr Bool) : ∀ (l l' : List R), filterInvalid accept (l.map some) = .ok l' → l'.Sublist l := by
  intro l
  induction l with
  | nil => intro l' h; obtain rfl := Except.ok.inj h; exact List.Sublist.refl _
  | cons a l ih =>
    intro l' h
    rw [List.map_cons, filterInvalid] at h
    cases ha : accept a with
    | error e => rw [ha] at h; cases h
    | ok b =>
      rw [ha] at h
      cases b with
      | false => exact (ih l' h).cons a
      | true =>
        dsimp only at h
        cases hr : filterInvalid accept (l.map some) with
        | error e => rw [hr] at h; cases h
        | ok l'' =>
          rw [hr] at h
          obtain rfl := Except.ok.inj h
          exact (ih l'' hr).cons_cons a

end Suprb
