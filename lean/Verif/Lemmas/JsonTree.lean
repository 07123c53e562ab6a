import Verif.Lemmas.Json

/-!
# Lemmas about paths and their joined strings, and the nodes of a configuration tree
-/

set_option autoImplicit false
set_option linter.unusedSectionVars false

namespace Suprb

namespace Json

/-- A usual parameter name: not empty, no `__` inside, no underscore at either end. -/
def NameOk (n : Str) : Prop := n ≠ [] ∧ hasSep n = false ∧ n.head? ≠ some '_' ∧ n.getLast? ≠ some '_'

instance (n : Str) : Decidable (NameOk n) := by unfold NameOk; infer_instance

theorem hasSep_cons₂ (a b : Char) (r : Str) : hasSep (a :: b :: r) = false ↔ ¬ (a = '_' ∧ b = '_') ∧ hasSep (b :: r) = false := by
  rw [hasSep, Bool.or_eq_false_iff]
  simp

theorem splitSep_of_no_sep (n : Str) (h : hasSep n = false) : splitSep n = [n] := by
  fun_induction splitSep n with
  | case1 => rfl
  | case2 => rfl
  | case3 a b r hab => exact absurd hab ((hasSep_cons₂ a b r).mp h).1
  | case4 a b r _ ih => rw [ih ((hasSep_cons₂ a b r).mp h).2]; rfl

theorem splitSep_append (n r : Str) (h : hasSep n = false) (hl : n.getLast? ≠ some '_') :
    splitSep (n ++ '_' :: '_' :: r) = n :: splitSep r := by
  induction n with
  | nil => rw [List.nil_append, splitSep, if_pos ⟨rfl, rfl⟩]
  | cons a n ih =>
    cases n with
    | nil =>
      have ha : ¬ (a = '_' ∧ '_' = '_') := fun h => hl (by rw [h.1]; rfl)
      rw [List.cons_append, List.nil_append, splitSep, if_neg ha, splitSep, if_pos ⟨rfl, rfl⟩]
      rfl
    | cons b n =>
      obtain ⟨h1, h2⟩ := (hasSep_cons₂ a b n).mp h
      have h3 := ih h2 (by rw [List.getLast?_cons_cons] at hl; exact hl)
      rw [List.cons_append, List.cons_append, splitSep, if_neg h1]
      rw [List.cons_append] at h3
      rw [h3]
      rfl

theorem splitSep_joinSep (p : List Str) (hp : p ≠ []) (h : ∀ n ∈ p, NameOk n) : splitSep (joinSep p) = p := by
  induction p with
  | nil => exact absurd rfl hp
  | cons n p ih =>
    obtain ⟨_, h1, _, h2⟩ := h n (List.mem_cons_self ..)
    cases p with
    | nil => exact splitSep_of_no_sep n h1
    | cons m p =>
      rw [joinSep_cons _ _ (by simp), splitSep_append _ _ h1 h2, ih (by simp) fun x hx => h x (List.mem_cons_of_mem _ hx)]

theorem joinSep_injective (p q : List Str) (hp : p ≠ []) (hq : q ≠ []) (h : ∀ n ∈ p, NameOk n) (h' : ∀ n ∈ q, NameOk n)
    (he : joinSep p = joinSep q) : p = q := by
  rw [← splitSep_joinSep p hp h, ← splitSep_joinSep q hq h', he]

theorem length_splitSep (s : Str) : (splitSep s).length = countSep s + 1 := by
  fun_induction splitSep s with
  | case1 => rfl
  | case2 => rfl
  | case3 a b r h ih => rw [List.length_cons, ih, countSep, if_pos h]
  | case4 a b r h ih =>
    rw [countSep, if_neg h, ← ih]
    cases hs : splitSep (b :: r) with
    | nil => exact absurd hs (splitSep_ne_nil _)
    | cons x t => rfl

theorem countSep_joinSep (p : List Str) (hp : p ≠ []) (h : ∀ n ∈ p, NameOk n) : countSep (joinSep p) + 1 = p.length := by
  rw [← length_splitSep, splitSep_joinSep p hp h]

theorem joinSep_concat (q : List Str) (n : Str) (hq : q ≠ []) : joinSep (q ++ [n]) = joinSep q ++ '_' :: '_' :: n := by
  induction q with
  | nil => exact absurd rfl hq
  | cons m q ih =>
    cases q with
    | nil => rfl
    | cons m' q =>
      rw [List.cons_append, joinSep_cons _ _ (by simp), ih (by simp), joinSep_cons m (m' :: q) (by simp)]
      simp

theorem afterLastSep_none (s : Str) (h : hasSep s = false) : afterLastSep s = none := by
  fun_induction afterLastSep s with
  | case1 => rfl
  | case2 => rfl
  | case3 a b r s hs ih =>
    rw [ih ((hasSep_cons₂ a b r).mp h).2] at hs
    cases hs
  | case4 a b r hs hab ih => exact absurd hab ((hasSep_cons₂ a b r).mp h).1
  | case5 a b r hs hab ih => rfl

theorem afterLastSep_append (s n : Str) (h : hasSep n = false) (hh : n.head? ≠ some '_') :
    afterLastSep (s ++ '_' :: '_' :: n) = some n := by
  induction s with
  | nil =>
    have h1 : hasSep ('_' :: n) = false := by
      cases n with
      | nil => rfl
      | cons c n => exact (hasSep_cons₂ _ _ _).mpr ⟨fun h => hh (by rw [h.2]; rfl), h⟩
    rw [List.nil_append, afterLastSep, afterLastSep_none _ h1]
    rfl
  | cons a s ih =>
    cases s with
    | nil =>
      rw [List.nil_append] at ih
      rw [List.cons_append, List.nil_append, afterLastSep, ih]
    | cons b s =>
      rw [List.cons_append] at ih
      rw [List.cons_append, List.cons_append, afterLastSep, ih]

theorem paramName_joinSep (q : List Str) (n : Str) (hq : q ≠ []) (hn : NameOk n) : paramName (joinSep (q ++ [n])) = n := by
  unfold paramName
  rw [joinSep_concat q n hq, afterLastSep_append _ _ hn.2.1 hn.2.2.1]
  rfl

theorem head_splitSep (b t : Str) (h : hasSep b = false) (hl : b.getLast? ≠ some '_') :
    ∃ x rest, splitSep (b ++ t) = x :: rest ∧ b <+: x := by
  induction b with
  | nil =>
    cases hs : splitSep ([] ++ t) with
    | nil => exact absurd hs (splitSep_ne_nil _)
    | cons x rest => exact ⟨x, rest, rfl, List.nil_prefix⟩
  | cons a b ih =>
    cases b with
    | nil =>
      cases t with
      | nil => exact ⟨[a], [], rfl, List.prefix_rfl⟩
      | cons c t =>
        have ha : ¬ (a = '_' ∧ c = '_') := fun h => hl (by rw [h.1]; rfl)
        rw [List.cons_append, List.nil_append, splitSep, if_neg ha]
        cases hs : splitSep (c :: t) with
        | nil => exact absurd hs (splitSep_ne_nil _)
        | cons x rest => exact ⟨a :: x, rest, rfl, (List.prefix_cons_inj _).mpr List.nil_prefix⟩
    | cons c b =>
      obtain ⟨h1, h2⟩ := (hasSep_cons₂ a c b).mp h
      obtain ⟨x, rest, hx, hp⟩ := ih h2 (by rw [List.getLast?_cons_cons] at hl; exact hl)
      rw [List.cons_append] at hx
      rw [List.cons_append, List.cons_append, splitSep, if_neg h1, hx]
      exact ⟨a :: x, rest, rfl, (List.prefix_cons_inj _).mpr hp⟩

/-- Joined strings: a string prefix agrees with the other path except that its last name may be a prefix of the corresponding name. -/
theorem prefix_joinSep (b : List Str) (l : Str) (q : List Str) (hq : q ≠ []) (hb : ∀ n ∈ b ++ [l], NameOk n) (hqn : ∀ n ∈ q, NameOk n)
    (h : joinSep (b ++ [l]) <+: joinSep q) : ∃ x rest, q = b ++ x :: rest ∧ l <+: x := by
  induction b generalizing q with
  | nil =>
    obtain ⟨t, ht⟩ := h
    obtain ⟨_, h1, _, h2⟩ := hb l (by simp)
    obtain ⟨x, rest, hx, hp⟩ := head_splitSep l t h1 h2
    refine ⟨x, rest, ?_, hp⟩
    rw [List.nil_append, ← hx, ← splitSep_joinSep q hq hqn, ← ht]
    rfl
  | cons n b ih =>
    obtain ⟨t, ht⟩ := h
    obtain ⟨_, h1, _, h2⟩ := hb n (by simp)
    rw [List.cons_append, joinSep_cons _ _ (by simp), List.append_assoc, List.cons_append, List.cons_append] at ht
    have hs := splitSep_append n (joinSep (b ++ [l]) ++ t) h1 h2
    rw [ht, splitSep_joinSep q hq hqn] at hs
    obtain ⟨x, rest, hx, hp⟩ := ih (splitSep (joinSep (b ++ [l]) ++ t)) (splitSep_ne_nil _)
      (fun m hm => hb m (List.mem_cons_of_mem _ hm)) (fun m hm => hqn m (by rw [hs]; exact List.mem_cons_of_mem _ hm))
      (by rw [joinSep_splitSep]; exact List.prefix_append _ _)
    exact ⟨x, rest, by rw [hs, hx]; rfl, hp⟩

theorem hasSep_append_left (a s : Str) (h : hasSep s = true) : hasSep (a ++ s) = true := by
  induction a with
  | nil => exact h
  | cons c a ih =>
    cases has : a ++ s with
    | nil => rw [has] at ih; cases ih
    | cons d r =>
      rw [List.cons_append, has, hasSep, Bool.or_eq_true]
      rw [has] at ih
      exact .inr ih

theorem hasSep_append_right (s b : Str) (h : hasSep s = true) : hasSep (s ++ b) = true := by
  fun_induction hasSep s with
  | case1 => cases h
  | case2 => cases h
  | case3 a c r ih =>
    rw [List.cons_append, List.cons_append, hasSep, Bool.or_eq_true]
    rw [Bool.or_eq_true] at h
    exact h.imp id fun h => ih h

theorem hasSep_joinSep (p : List Str) (h : 2 ≤ p.length) : hasSep (joinSep p) = true := by
  match p, h with
  | a :: b :: rest, _ =>
    rw [joinSep_cons _ _ (by simp)]
    exact hasSep_append_left _ _ rfl

theorem no_sep_append (a s : Str) (ha : hasSep a = false) (hl : a.getLast? ≠ some '_') (hs : hasSep s = false) : hasSep (a ++ s) = false := by
  induction a with
  | nil => exact hs
  | cons c a ih =>
    cases a with
    | nil =>
      cases s with
      | nil => rfl
      | cons d s => exact (hasSep_cons₂ c d s).mpr ⟨fun h => hl (by rw [h.1]; rfl), hs⟩
    | cons d a =>
      obtain ⟨h1, h2⟩ := (hasSep_cons₂ c d a).mp ha
      exact (hasSep_cons₂ c d _).mpr ⟨h1, ih h2 (by rw [List.getLast?_cons_cons] at hl; exact hl)⟩

theorem no_sep_flatMap {α : Type} (l : List α) (f : α → Str) (h : ∀ x ∈ l, NameOk (f x)) : hasSep (l.flatMap f) = false := by
  induction l with
  | nil => rfl
  | cons x l ih =>
    obtain ⟨_, h1, _, h2⟩ := h x (List.mem_cons_self ..)
    exact no_sep_append _ _ h1 h2 (ih fun y hy => h y (List.mem_cons_of_mem _ hy))

/-! ### Nodes of the configuration tree -/

mutual
/-- All parameters below a value, with their paths. -/
def Val.nodes : List Str → Val → List (List Str × Val)
  | p, .obj true _ ps => ps.nodes p
  | _, .obj false _ _ => []
  | _, .num _ => []
  | _, .str _ => []
  | _, .none => []
  | _, .array _ => []
def Params.nodes : List Str → Params → List (List Str × Val)
  | _, .nil => []
  | p, .cons n v rest => v.nodes (p ++ [n]) ++ (p ++ [n], v) :: rest.nodes p
end

mutual
theorem Val.flat_eq (p : List Str) (v : Val) : v.flat p = (v.nodes p).map fun e => (e.1, e.2.enc) := by
  match v with
  | .obj true _ ps => rw [Val.flat, Val.nodes, Params.flat_eq]
  | .obj false _ _ => rw [Val.flat, Val.nodes]; rfl
  | .num _ => rw [Val.flat, Val.nodes]; rfl
  | .str _ => rw [Val.flat, Val.nodes]; rfl
  | .none => rw [Val.flat, Val.nodes]; rfl
  | .array _ => rw [Val.flat, Val.nodes]; rfl
theorem Params.flat_eq (p : List Str) (ps : Params) : ps.flat p = (ps.nodes p).map fun e => (e.1, e.2.enc) := by
  match ps with
  | .nil => rw [Params.flat, Params.nodes]; rfl
  | .cons n v rest => rw [Params.flat, Params.nodes, Val.flat_eq, Params.flat_eq, List.map_append, List.map_cons]
end

mutual
theorem Val.nodes_prefix (p : List Str) (v : Val) : ∀ e ∈ v.nodes p, ∃ x rest, e.1 = p ++ x :: rest := by
  match v with
  | .obj true _ ps => rw [Val.nodes]; exact Params.nodes_prefix p ps
  | .obj false _ _ => rw [Val.nodes]; simp
  | .num _ => rw [Val.nodes]; simp
  | .str _ => rw [Val.nodes]; simp
  | .none => rw [Val.nodes]; simp
  | .array _ => rw [Val.nodes]; simp
theorem Params.nodes_prefix (p : List Str) (ps : Params) : ∀ e ∈ ps.nodes p, ∃ x rest, e.1 = p ++ x :: rest := by
  match ps with
  | .nil => rw [Params.nodes]; simp
  | .cons n v rest =>
    rw [Params.nodes]
    intro e he
    rw [List.mem_append, List.mem_cons] at he
    rcases he with he | rfl | he
    · obtain ⟨x, r, h⟩ := Val.nodes_prefix (p ++ [n]) v e he
      exact ⟨n, x :: r, by rw [h]; simp⟩
    · exact ⟨n, [], rfl⟩
    · exact Params.nodes_prefix p rest e he
end

theorem Params.mem_nodes_of_mem (p : List Str) (ps : Params) (n : Str) (v : Val) (h : (n, v) ∈ ps.toList) : (p ++ [n], v) ∈ ps.nodes p := by
  match ps with
  | .nil => cases h
  | .cons m w rest =>
    rw [Params.nodes, List.mem_append, List.mem_cons]
    rw [Params.toList] at h
    rcases List.mem_cons.mp h with h | h
    · cases h; exact .inr (.inl rfl)
    · exact .inr (.inr (Params.mem_nodes_of_mem p rest n v h))

mutual
theorem Val.child_mem (p : List Str) (v : Val) (q : List Str) (cls : Str) (qs : Params) (n : Str) (w : Val)
    (h : (q, Val.obj true cls qs) ∈ v.nodes p) (hn : (n, w) ∈ qs.toList) : (q ++ [n], w) ∈ v.nodes p := by
  match v with
  | .obj true _ ps => rw [Val.nodes] at h ⊢; exact Params.child_mem p ps q cls qs n w h hn
  | .obj false _ _ => rw [Val.nodes] at h; cases h
  | .num _ => rw [Val.nodes] at h; cases h
  | .str _ => rw [Val.nodes] at h; cases h
  | .none => rw [Val.nodes] at h; cases h
  | .array _ => rw [Val.nodes] at h; cases h
theorem Params.child_mem (p : List Str) (ps : Params) (q : List Str) (cls : Str) (qs : Params) (n : Str) (w : Val)
    (h : (q, Val.obj true cls qs) ∈ ps.nodes p) (hn : (n, w) ∈ qs.toList) : (q ++ [n], w) ∈ ps.nodes p := by
  match ps with
  | .nil => rw [Params.nodes] at h; cases h
  | .cons m u rest =>
    rw [Params.nodes, List.mem_append, List.mem_cons] at h ⊢
    rcases h with h | h | h
    · exact .inl (Val.child_mem (p ++ [m]) u q cls qs n w h hn)
    · cases h
      rw [Val.nodes]
      exact .inl (Params.mem_nodes_of_mem _ qs n w hn)
    · exact .inr (.inr (Params.child_mem p rest q cls qs n w h hn))
end

mutual
theorem Val.parent (p : List Str) (v : Val) (q : List Str) (w : Val) (h : (q, w) ∈ v.nodes p) :
    ∃ q' n cls qs, q = q' ++ [n] ∧ (n, w) ∈ qs.toList ∧ ((q' = p ∧ v = .obj true cls qs) ∨ (q', Val.obj true cls qs) ∈ v.nodes p) := by
  match v with
  | .obj true cls ps =>
    rw [Val.nodes] at h ⊢
    obtain ⟨q', n, h1, h2⟩ := Params.parent p ps q w h
    rcases h2 with ⟨rfl, h2⟩ | ⟨cls', qs, h2, h3⟩
    · exact ⟨q', n, cls, ps, h1, h2, .inl ⟨rfl, rfl⟩⟩
    · exact ⟨q', n, cls', qs, h1, h2, .inr h3⟩
  | .obj false _ _ => rw [Val.nodes] at h; cases h
  | .num _ => rw [Val.nodes] at h; cases h
  | .str _ => rw [Val.nodes] at h; cases h
  | .none => rw [Val.nodes] at h; cases h
  | .array _ => rw [Val.nodes] at h; cases h
theorem Params.parent (p : List Str) (ps : Params) (q : List Str) (w : Val) (h : (q, w) ∈ ps.nodes p) :
    ∃ q' n, q = q' ++ [n] ∧ ((q' = p ∧ (n, w) ∈ ps.toList) ∨ ∃ cls qs, (n, w) ∈ qs.toList ∧ (q', Val.obj true cls qs) ∈ ps.nodes p) := by
  match ps with
  | .nil => rw [Params.nodes] at h; cases h
  | .cons m u rest =>
    rw [Params.nodes, List.mem_append, List.mem_cons] at h
    rw [Params.toList, Params.nodes]
    rcases h with h | h | h
    · obtain ⟨q', n, cls, qs, h1, h2, h3⟩ := Val.parent (p ++ [m]) u q w h
      refine ⟨q', n, h1, .inr ⟨cls, qs, h2, ?_⟩⟩
      rw [List.mem_append, List.mem_cons]
      rcases h3 with ⟨rfl, rfl⟩ | h3
      · exact .inr (.inl rfl)
      · exact .inl h3
    · cases h
      exact ⟨p, m, rfl, .inl ⟨rfl, List.mem_cons_self ..⟩⟩
    · obtain ⟨q', n, h1, h2⟩ := Params.parent p rest q w h
      refine ⟨q', n, h1, ?_⟩
      rcases h2 with ⟨h2, h3⟩ | ⟨cls, qs, h2, h3⟩
      · exact .inl ⟨h2, List.mem_cons_of_mem _ h3⟩
      · exact .inr ⟨cls, qs, h2, List.mem_append.mpr (.inr (List.mem_cons_of_mem _ h3))⟩
end

end Json

end Suprb
