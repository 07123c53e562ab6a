import Verif.Model.Wrapper
import Verif.Lemmas.JsonRound
import Verif.Props.Dump

/-!
# C60: the wrapper
-/

set_option autoImplicit false
set_option linter.unusedSectionVars false

namespace Suprb

open Json Wrapper

/-! ## Paths -/

theorem splitDot_ne_nil (s : Str) : splitDot s ≠ [] := by
  cases s with
  | nil => simp [splitDot]
  | cons c r =>
    unfold splitDot
    split
    · simp
    · unfold consHead; split <;> simp

/-- For keys without dots (all Python identifiers), the path is the key split at double underscores. -/
theorem keyPath_eq (k : Str) (h : '.' ∉ k) : keyPath k = splitSep k := by
  unfold keyPath
  fun_induction replaceSep k with
  | case1 => rfl
  | case2 c =>
    have : c ≠ '.' := fun h' => h (by simp [h'])
    simp [splitDot, splitSep, this, consHead]
  | case3 a b r hab ih =>
    rw [splitDot, if_pos rfl, splitSep, if_pos hab, ih (fun h' => h (by simp [h']))]
  | case4 a b r hab ih =>
    have ha : a ≠ '.' := fun h' => h (by simp [h'])
    rw [splitDot, if_neg ha, splitSep, if_neg hab, ih (fun h' => h (List.mem_cons_of_mem _ h'))]

theorem getPath_append (p q : List Str) (v : Val) : getPath (p ++ q) v = (getPath p v).bind (getPath q) := by
  induction p generalizing v with
  | nil => rfl
  | cons n p ih =>
    rw [List.cons_append, getPath, getPath]
    cases v.attr n with
    | ok w => exact ih w
    | error e => rfl

theorem attr_setPath_cons (n : Str) (rest : List Str) (w v : Val) (m : Str) (h : ∃ u, v.attr n = .ok u) :
    (setPath (n :: rest) w v).attr m = if m = n then (v.attr n).map (setPath rest w) else v.attr m := by
  obtain ⟨u, hu⟩ := h
  obtain ⟨dp, c, ps, rfl, hg⟩ := (Val.attr_ok v u n).mp hu
  rw [hu]
  unfold setPath
  rw [hg]
  dsimp only
  unfold Val.attr
  dsimp only
  rw [Params.toList_ofList, Dict.get_set]
  by_cases hm : m = n
  · rw [if_pos hm, if_pos hm]
    rfl
  · rw [if_neg hm, if_neg hm]

/-- Reading after writing, for paths that do not end above the written one. -/
theorem getPath_setPath (p : List Str) (w t : Val) (q : List Str) (hp : (getPath p t).isSome = true) (hq : q <+: p → q = p) :
    getPath q (setPath p w t) = if p <+: q then getPath (q.drop p.length) w else getPath q t := by
  induction p generalizing t q with
  | nil =>
    rw [if_pos (List.nil_prefix)]
    unfold setPath
    rfl
  | cons n p ih =>
    cases q with
    | nil => exact absurd (hq List.nil_prefix) (by simp)
    | cons m q =>
      have hu : ∃ u, t.attr n = .ok u := by
        unfold getPath at hp
        cases ha : t.attr n with
        | ok u => exact ⟨u, rfl⟩
        | error e => rw [ha] at hp; cases hp
      rw [getPath, attr_setPath_cons n p w t m hu]
      obtain ⟨u, hu⟩ := hu
      by_cases hm : m = n
      · subst hm
        rw [if_pos rfl, hu]
        rw [getPath, hu] at hp
        have := ih u q hp (fun h => by
          have := hq (by rw [List.cons_prefix_cons]; exact ⟨rfl, h⟩)
          exact (List.cons.inj this).2)
        have hiff : (m :: p <+: m :: q) ↔ p <+: q := by rw [List.cons_prefix_cons]; simp
        simp only [Except.map, this, hiff, List.length_cons, List.drop_succ_cons]
        rw [getPath, hu]
      · rw [if_neg hm]
        have : ¬ (n :: p <+: m :: q) := by
          rw [List.cons_prefix_cons]
          exact fun h => hm h.1.symm
        rw [if_neg this, getPath]

/-- If the object path exists, it is followed exactly. -/
theorem walk_exists (p : List Str) (v u : Val) (h : getPath p v = some u) : walk p v = (p, u) := by
  induction p generalizing v with
  | nil => cases h; rfl
  | cons n p ih =>
    unfold getPath at h
    unfold walk
    cases ha : v.attr n with
    | error e => rw [ha] at h; cases h
    | ok w =>
      rw [ha] at h
      dsimp only at h ⊢
      rw [ih w h]

theorem getPath_last (p : List Str) (n : Str) (v : Val) : getPath (p ++ [n]) v = (getPath p v).bind fun u => (u.attr n).toOption := by
  rw [getPath_append]
  cases getPath p v with
  | none => rfl
  | some u =>
    dsimp only [Option.bind]
    unfold getPath
    cases u.attr n with
    | ok w => rfl
    | error e => rfl

/-- A keyword argument naming an existing parameter sets it. -/
theorem applyOne_ok (t : Val) (ws : List Str) (k : Str) (v : Val) (hk : k ≠ "print_config".toList) (h : (getPath (keyPath k) t).isSome = true) :
    applyOne (t, ws) (k, v) = (setPath (keyPath k) v t, ws) := by
  have hne : keyPath k ≠ [] := splitDot_ne_nil _
  have hsplit : keyPath k = (keyPath k).dropLast ++ [(keyPath k).getLast?.getD []] := by
    conv_lhs => rw [← List.dropLast_append_getLast hne]
    rw [List.getLast?_eq_some_getLast hne]
    rfl
  rw [hsplit, getPath_last] at h
  cases hg : getPath (keyPath k).dropLast t with
  | none => rw [hg] at h; cases h
  | some u =>
    rw [hg] at h
    unfold applyOne
    rw [if_neg hk]
    dsimp only
    rw [walk_exists _ _ _ hg]
    dsimp only [Option.bind] at h ⊢
    cases ha : u.attr ((keyPath k).getLast?.getD []) with
    | error e => rw [ha] at h; cases h
    | ok w =>
      dsimp only
      rw [← hsplit]

/-- **C60 (partial 2).** A keyword argument whose object exists but has no such parameter changes nothing and is warned about. -/
theorem C60_unknown_partial (t : Val) (k : Str) (v : Val) (u : Val) (hk : k ≠ "print_config".toList) (hu : getPath (keyPath k).dropLast t = some u)
    (h : ∀ n, (keyPath k).getLast? = some n → ∃ e, u.attr n = .error e) : configure t [(k, v)] = (t, [k]) := by
  have hne : keyPath k ≠ [] := splitDot_ne_nil _
  obtain ⟨e, he⟩ := h _ (List.getLast?_eq_some_getLast hne)
  show applyOne (t, []) (k, v) = _
  unfold applyOne
  rw [if_neg hk]
  dsimp only
  rw [walk_exists _ _ _ hu]
  dsimp only
  rw [List.getLast?_eq_some_getLast hne]
  dsimp only [Option.getD]
  rw [he]
  rfl

/-! ## The specification -/

/-- The documented value `r` at path `q`, given the named parameters `kw` (paths and values): the value given for the longest path that is `q` or above it, or else what was there before. -/
def Documented (init : Val) (kw : List (List Str × Val)) (q : List Str) (r : Option Val) : Prop :=
  (∃ e ∈ kw, e.1 <+: q ∧ (∀ e' ∈ kw, e'.1 <+: q → e'.1.length ≤ e.1.length) ∧ r = getPath (q.drop e.1.length) e.2) ∨
  ((∀ e ∈ kw, ¬ e.1 <+: q) ∧ r = getPath q init)

/-- All named parameters exist: each in the value given for the closest named component above it, or else in the model. -/
def AllNamed (init : Val) (kw : List (List Str × Val)) : Prop :=
  ∀ e ∈ kw, ∃ u, Documented init (kw.filter fun e' => decide (e'.1 ≠ e.1)) e.1 (some u)

theorem documented_perm {init : Val} {kw kw' : List (List Str × Val)} (h : ∀ e, e ∈ kw ↔ e ∈ kw') (q : List Str) (r : Option Val) :
    Documented init kw q r → Documented init kw' q r := by
  rintro (⟨e, h1, h2, h3, h4⟩ | ⟨h1, h2⟩)
  · exact .inl ⟨e, (h e).mp h1, h2, fun e' he' => h3 e' ((h e').mpr he'), h4⟩
  · exact .inr ⟨fun e he => h1 e ((h e).mpr he), h2⟩

theorem prefix_eq_of_length {p p' q : List Str} (h : p <+: q) (h' : p' <+: q) (hl : p.length = p'.length) : p = p' := by
  rw [List.prefix_iff_eq_take.mp h, List.prefix_iff_eq_take.mp h', hl]

theorem documented_unique {init : Val} {kw : List (List Str × Val)} (hn : (kw.map Prod.fst).Nodup) (q : List Str) (r r' : Option Val)
    (h : Documented init kw q r) (h' : Documented init kw q r') : r = r' := by
  rcases h with ⟨e, h1, h2, h3, h4⟩ | ⟨h1, h2⟩
  · rcases h' with ⟨e', h1', h2', h3', h4'⟩ | ⟨h1', _⟩
    · have hl : e.1.length = e'.1.length := le_antisymm (h3' e h1 h2) (h3 e' h1' h2')
      have he : e = e' := by
        have := prefix_eq_of_length h2 h2' hl
        exact List.inj_on_of_nodup_map hn h1 h1' this
      rw [h4, h4', he]
    · exact absurd h2 (h1' e h1)
  · rcases h' with ⟨e', h1', h2', _⟩ | ⟨_, h2'⟩
    · exact absurd h2' (h1 e' h1')
    · rw [h2, h2']

/-- The paths of the keyword arguments. -/
def paths (kwargs : List (Str × Val)) : List (List Str × Val) := kwargs.map fun kw => (keyPath kw.1, kw.2)

theorem configure_sorted (init : Val) (done todo : List (Str × Val)) (t : Val) (ws : List Str)
    (hs : (done ++ todo).Pairwise fun a b => (keyPath a.1).length ≤ (keyPath b.1).length)
    (hn : ((paths (done ++ todo)).map Prod.fst).Nodup) (hp : ∀ kw ∈ todo, kw.1 ≠ "print_config".toList)
    (hall : AllNamed init (paths (done ++ todo)))
    (ht : ∀ q, (∀ e ∈ paths done, q <+: e.1 → q = e.1) → Documented init (paths done) q (getPath q t)) :
    (todo.foldl applyOne (t, ws)).2 = ws ∧
      ∀ q, (∀ e ∈ paths (done ++ todo), q <+: e.1 → q = e.1) → Documented init (paths (done ++ todo)) q (getPath q (todo.foldl applyOne (t, ws)).1) := by
  induction todo generalizing done t with
  | nil =>
    refine ⟨rfl, ?_⟩
    rw [List.append_nil]
    exact ht
  | cons kw todo ih =>
    obtain ⟨k, v⟩ := kw
    have hsplit : done ++ (k, v) :: todo = (done ++ [(k, v)]) ++ todo := by simp
    -- paths before are not longer, and different
    have hlen : ∀ a ∈ done, (keyPath a.1).length ≤ (keyPath k).length := by
      intro a ha
      exact (List.pairwise_append.mp hs).2.2 a ha (k, v) (by simp)
    have hlen' : ∀ a ∈ todo, (keyPath k).length ≤ (keyPath a.1).length := by
      intro a ha
      exact (List.pairwise_cons.mp (List.pairwise_append.mp hs).2.1).1 a ha
    have hdiff : ∀ a ∈ done, keyPath a.1 ≠ keyPath k := by
      intro a ha he
      unfold paths at hn
      rw [List.map_append, List.map_append, List.nodup_append] at hn
      exact hn.2.2 (keyPath a.1) (by simp; exact ⟨a.1, ⟨a.2, ha⟩, rfl⟩) (keyPath k) (by simp) he
    have hdiff' : ∀ a ∈ todo, keyPath a.1 ≠ keyPath k := by
      intro a ha he
      unfold paths at hn
      rw [List.map_append, List.map_append, List.nodup_append, List.map_cons, List.map_cons, List.nodup_cons] at hn
      exact hn.2.1.1 (by simp only [List.map_map, List.mem_map]; exact ⟨a, ha, he⟩)
    -- the parameter exists now
    have hex : (getPath (keyPath k) t).isSome = true := by
      obtain ⟨u, hu⟩ := hall (keyPath k, v) (by unfold paths; simp)
      have h1 := ht (keyPath k) (by
        intro e he hpre
        obtain ⟨a, ha, rfl⟩ := List.mem_map.mp he
        exact List.IsPrefix.eq_of_length_le hpre (hlen a ha))
      -- the two specifications agree
      have h2 : Documented init (paths done) (keyPath k) (some u) := by
        have hmem : ∀ e ∈ paths (done ++ (k, v) :: todo), e.1 ≠ keyPath k → e.1 <+: keyPath k → e ∈ paths done := by
          intro e he hne hpre
          obtain ⟨a, ha, rfl⟩ := List.mem_map.mp he
          rcases List.mem_append.mp ha with ha | ha
          · exact List.mem_map_of_mem ha
          · rcases List.mem_cons.mp ha with rfl | ha
            · exact absurd rfl hne
            · exact absurd (List.IsPrefix.eq_of_length_le hpre (hlen' a ha)) hne
        have hsub : ∀ e ∈ paths done, e ∈ (paths (done ++ (k, v) :: todo)).filter fun e' => decide (e'.1 ≠ keyPath k) := by
          intro e he
          obtain ⟨a, ha, rfl⟩ := List.mem_map.mp he
          refine List.mem_filter.mpr ⟨List.mem_map_of_mem (List.mem_append_left _ ha), ?_⟩
          exact decide_eq_true (hdiff a ha)
        rcases hu with ⟨e, g1, g2, g3, g4⟩ | ⟨g1, g2⟩
        · obtain ⟨g1, g1'⟩ := List.mem_filter.mp g1
          exact .inl ⟨e, hmem e g1 (of_decide_eq_true g1') g2, g2, fun e' he' => g3 e' (hsub e' he'), g4⟩
        · exact .inr ⟨fun e he => g1 e (hsub e he), g2⟩
      have hnd : ((paths done).map Prod.fst).Nodup := by
        unfold paths at hn ⊢
        rw [List.map_append, List.map_append, List.nodup_append] at hn
        exact hn.1
      rw [documented_unique hnd _ _ _ h1 h2]
      rfl
    rw [List.foldl_cons, applyOne_ok t ws k v (hp (k, v) (by simp)) hex]
    rw [hsplit] at hs hn hall ⊢
    refine ih (done ++ [(k, v)]) (setPath (keyPath k) v t) hs hn (fun kw h => hp kw (List.mem_cons_of_mem _ h)) hall ?_
    intro q hq
    have hmemk : (keyPath k, v) ∈ paths (done ++ [(k, v)]) := by unfold paths; simp
    rw [getPath_setPath (keyPath k) v t q hex (hq _ hmemk)]
    have hdone : ∀ e ∈ paths done, e ∈ paths (done ++ [(k, v)]) := by
      intro e he
      unfold paths
      rw [List.map_append]
      exact List.mem_append_left _ he
    have hcases : ∀ e ∈ paths (done ++ [(k, v)]), e ∈ paths done ∨ e = (keyPath k, v) := by
      intro e he
      unfold paths at he
      rw [List.map_append] at he
      rcases List.mem_append.mp he with he | he
      · exact .inl he
      · exact .inr (by simpa using he)
    by_cases hpre : keyPath k <+: q
    · rw [if_pos hpre]
      refine .inl ⟨(keyPath k, v), hmemk, hpre, ?_, rfl⟩
      intro e' he' hpre'
      rcases hcases e' he' with h | rfl
      · obtain ⟨a, ha, rfl⟩ := List.mem_map.mp h
        exact hlen a ha
      · exact le_rfl
    · rw [if_neg hpre]
      rcases ht q (fun e he => hq e (hdone e he)) with ⟨e, g1, g2, g3, g4⟩ | ⟨g1, g2⟩
      · refine .inl ⟨e, hdone e g1, g2, ?_, g4⟩
        intro e' he' hpre'
        rcases hcases e' he' with h | rfl
        · exact g3 e' h hpre'
        · exact absurd hpre' hpre
      · refine .inr ⟨?_, g2⟩
        intro e he
        rcases hcases e he with h | rfl
        · exact g1 e h
        · exact hpre

/-- **C60 (partial 1).** If all keyword arguments (distinct Python names) name existing parameters, then there is no warning and every parameter has the documented value: the one that was given for it,
or inside the given value of the closest component above it, or the one it had before. This covers all parameters, except that the components above a named parameter are judged by their parameters. Missing: misspelt names in the middle (refuted below). -/
theorem C60_sets_partial (m : Val) (kwargs : List (Str × Val)) (hk : (kwargs.map Prod.fst).Nodup) (hdot : ∀ kw ∈ kwargs, '.' ∉ kw.1)
    (hp : ∀ kw ∈ kwargs, kw.1 ≠ "print_config".toList) (hall : AllNamed m (paths kwargs)) :
    (configure m kwargs).2 = [] ∧
      ∀ q, (∀ e ∈ paths kwargs, q <+: e.1 → q = e.1) → Documented m (paths kwargs) q (getPath q (configure m kwargs).1) := by
  have hperm := sortedAsc_perm (fun kw : Str × Val => countSep kw.1) kwargs
  have hmem : ∀ e, e ∈ paths (sortedAsc (fun kw : Str × Val => countSep kw.1) kwargs) ↔ e ∈ paths kwargs := by
    intro e
    unfold paths
    exact (hperm.map _).mem_iff
  have key := configure_sorted m [] (sortedAsc (fun kw : Str × Val => countSep kw.1) kwargs) m [] ?_ ?_ ?_ ?_ ?_
  · rw [List.nil_append] at key
    refine ⟨key.1, fun q hq => ?_⟩
    exact documented_perm hmem q _ (key.2 q fun e he => hq e ((hmem e).mp he))
  · rw [List.nil_append]
    refine (sortedAsc_pairwise _ _).imp_of_mem ?_
    intro a b ha hb hab
    rw [keyPath_eq a.1 (hdot a (hperm.subset ha)), keyPath_eq b.1 (hdot b (hperm.subset hb)), length_splitSep, length_splitSep]
    omega
  · rw [List.nil_append]
    unfold paths
    rw [List.map_map]
    have h1 : ((sortedAsc (fun kw : Str × Val => countSep kw.1) kwargs).map fun kw => kw.1).Nodup := (hperm.map _).nodup_iff.mpr hk
    have h2 : (sortedAsc (fun kw : Str × Val => countSep kw.1) kwargs).map (Prod.fst ∘ fun kw => (keyPath kw.1, kw.2)) =
        ((sortedAsc (fun kw : Str × Val => countSep kw.1) kwargs).map fun kw => kw.1).map keyPath := by
      rw [List.map_map]
      rfl
    rw [h2]
    refine List.Nodup.map_on ?_ h1
    intro a ha b hb hab
    obtain ⟨kw, hkw, rfl⟩ := List.mem_map.mp ha
    obtain ⟨kw', hkw', rfl⟩ := List.mem_map.mp hb
    rw [keyPath_eq _ (hdot kw (hperm.subset hkw)), keyPath_eq _ (hdot kw' (hperm.subset hkw'))] at hab
    rw [← joinSep_splitSep kw.1, hab, joinSep_splitSep]
  · intro kw hkw
    exact hp kw (hperm.subset hkw)
  · rw [List.nil_append]
    intro e he
    obtain ⟨u, hu⟩ := hall e ((hmem e).mp he)
    refine ⟨u, documented_perm ?_ _ _ hu⟩
    intro e'
    rw [List.mem_filter, List.mem_filter, hmem]
  · intro q _
    exact .inr ⟨by unfold paths; simp, rfl⟩

/-- **C60 (partial 3).** Calls for different explicitly given models are independent. -/
theorem C60_independent_partial (store : List Val) (i j : Nat) (kwargs : List (Str × Val)) (h : i ≠ j) : (call store (some i) kwargs).1[j]? = store[j]? := by
  unfold call
  dsimp only [Option.getD]
  cases store[i]? with
  | none => rfl
  | some m => exact List.getElem?_set_ne h

/-- **C60 (refuted 1).** Calls without explicit model all return the same object: the model returned by the first call has the settings of the second one. -/
theorem C60_refuted_shared (store : List Val) (kwargs₁ kwargs₂ : List (Str × Val)) :
    let c₁ := call store none kwargs₁
    let c₂ := call c₁.1 none kwargs₂
    c₁.2 = c₂.2 ∧ ∀ m, store[0]? = some m → c₂.1[c₁.2]? = some (configure (configure m kwargs₁).1 kwargs₂).1 := by
  cases store with
  | nil => exact ⟨rfl, fun m h => by cases h⟩
  | cons a rest => exact ⟨rfl, fun m h => by cases h; rfl⟩

/-- **C60 (refuted 2).** A misspelt component is skipped without warning, and the parameter of the component above (here the number of iterations of the whole model) is set instead. -/
theorem C60_refuted_misspelt :
    let m := Val.obj true (str "suprb.SupRB") (demoConfig (demoGA defaultFilter) (.num 42))
    let r := configure m [(str "solution_compositon__n_iter", .num 99)]
    getPath [str "solution_compositon"] m = none ∧ r.2 = [] ∧ getPath [str "n_iter"] m = some (.num 8) ∧ getPath [str "n_iter"] r.1 = some (.num 99) := by
  decide +kernel

/-- A name that the object reached so far lacks is skipped. -/
theorem walk_skip (pre : List Str) (n : Str) (rest : List Str) (v u w : Val) (hu : getPath pre v = some u) (hn : ∃ e, u.attr n = .error e)
    (hw : getPath rest u = some w) : walk (pre ++ n :: rest) v = (pre ++ rest, w) := by
  induction pre generalizing v with
  | nil =>
    cases hu
    obtain ⟨e, he⟩ := hn
    rw [List.nil_append, walk, he]
    exact walk_exists _ _ _ hw
  | cons m pre ih =>
    unfold getPath at hu
    rw [List.cons_append, walk]
    cases ha : v.attr m with
    | error e => rw [ha] at hu; cases hu
    | ok x =>
      rw [ha] at hu
      dsimp only at hu ⊢
      rw [ih x hu]
      rfl

/-- **C60 (refuted 3).** What happens to a misspelt component `n` anywhere in the name, in general: there is no warning, and the value goes to the parameter found by leaving out `n`;
everything not below that parameter stays as it was. -/
theorem C60_refuted_skipped (t : Val) (k : Str) (v : Val) (pre : List Str) (n : Str) (rest : List Str) (last : Str) (u w x : Val)
    (hk : k ≠ "print_config".toList) (hp : keyPath k = pre ++ n :: rest ++ [last]) (hu : getPath pre t = some u) (hn : ∃ e, u.attr n = .error e)
    (hw : getPath rest u = some w) (hx : w.attr last = .ok x) :
    (configure t [(k, v)]).2 = [] ∧ getPath (pre ++ rest ++ [last]) (configure t [(k, v)]).1 = some v ∧
      ∀ q, ¬ q <+: pre ++ rest ++ [last] → ¬ pre ++ rest ++ [last] <+: q → getPath q (configure t [(k, v)]).1 = getPath q t := by
  have hc : configure t [(k, v)] = (setPath (pre ++ rest ++ [last]) v t, []) := by
    show applyOne (t, []) (k, v) = _
    unfold applyOne
    rw [if_neg hk]
    dsimp only
    rw [hp, List.dropLast_concat, List.getLast?_concat, walk_skip pre n rest t u w hu hn hw]
    dsimp only [Option.getD]
    rw [hx]
  have hex : (getPath (pre ++ rest ++ [last]) t).isSome = true := by
    rw [getPath_last, getPath_append, hu]
    dsimp only [Option.bind]
    rw [hw]
    dsimp only
    rw [hx]
    rfl
  rw [hc]
  refine ⟨rfl, ?_, fun q h1 h2 => ?_⟩
  · rw [getPath_setPath _ v t _ hex (fun _ => rfl), if_pos (List.prefix_refl _), List.drop_length]
    rfl
  · rw [getPath_setPath _ v t _ hex (fun h => absurd h h1), if_neg h2]

/-! ### Examples -/

/-- Documented usage: a new component, a parameter of it, and a parameter of another component, in any order. -/
def wrapperArgs : List (Str × Val) :=
  [(str "solution_composition__crossover__n", .num 7),
   (str "solution_composition__crossover", .obj true (str "suprb.NPoint") (.cons (str "crossover_rate") (.num (1/2)) (.cons (str "n") (.num 2) .nil))),
   (str "n_iter", .num 1)]

def wrapperModel : Val := .obj true (str "suprb.SupRB") (demoConfig (demoGA defaultFilter) (.num 42))

theorem wrapper_named : AllNamed wrapperModel (paths wrapperArgs) := by
  intro e he
  have : e ∈ [([str "solution_composition", str "crossover", str "n"], Val.num 7),
      ([str "solution_composition", str "crossover"], .obj true (str "suprb.NPoint") (.cons (str "crossover_rate") (.num (1/2)) (.cons (str "n") (.num 2) .nil))),
      ([str "n_iter"], .num 1)] := by
    have h : ∀ e ∈ paths wrapperArgs, e ∈ [([str "solution_composition", str "crossover", str "n"], Val.num 7),
      ([str "solution_composition", str "crossover"], .obj true (str "suprb.NPoint") (.cons (str "crossover_rate") (.num (1/2)) (.cons (str "n") (.num 2) .nil))),
      ([str "n_iter"], .num 1)] := by decide +kernel
    exact h e he
  simp only [List.mem_cons, List.not_mem_nil, or_false] at this
  rcases this with rfl | rfl | rfl
  · exact ⟨.num 2, .inl ⟨([str "solution_composition", str "crossover"], .obj true (str "suprb.NPoint") (.cons (str "crossover_rate") (.num (1/2)) (.cons (str "n") (.num 2) .nil))),
      by decide +kernel, by decide +kernel, by decide +kernel, by decide +kernel⟩⟩
  · exact ⟨.obj true (str "suprb.NPoint") (.cons (str "crossover_rate") (.num (9/10)) (.cons (str "n") (.num 3) .nil)), .inr ⟨by decide +kernel, by decide +kernel⟩⟩
  · exact ⟨.num 8, .inr ⟨by decide +kernel, by decide +kernel⟩⟩

example : (configure wrapperModel wrapperArgs).2 = [] :=
  (C60_sets_partial wrapperModel wrapperArgs (by decide +kernel) (by decide +kernel) (by decide +kernel) wrapper_named).1

example : getPath [str "solution_composition", str "crossover", str "n"] (configure wrapperModel wrapperArgs).1 = some (.num 7) ∧
    getPath [str "solution_composition", str "crossover", str "crossover_rate"] (configure wrapperModel wrapperArgs).1 = some (.num (1/2)) := by decide +kernel

example : configure wrapperModel [(str "solution_composition__n_itr", .num 3)] = (wrapperModel, [str "solution_composition__n_itr"]) :=
  C60_unknown_partial wrapperModel _ _ (demoGA defaultFilter) (by decide +kernel) (by decide +kernel) (by
    intro n hn
    have : n = str "n_itr" := by
      have h : (keyPath (str "solution_composition__n_itr")).getLast? = some (str "n_itr") := by decide +kernel
      rw [h] at hn
      exact (Option.some.inj hn).symm
    subst this
    exact ⟨.attributeError, by decide +kernel⟩)

/-- The hypotheses of `C60_refuted_skipped`: a misspelt component inside another one. -/
example : (configure wrapperModel [(str "solution_composition__crosover__n_iter", .num 3)]).2 = [] :=
  (C60_refuted_skipped wrapperModel _ _ [str "solution_composition"] (str "crosover") [] (str "n_iter") (demoGA defaultFilter) (demoGA defaultFilter) (.num 16)
    (by decide +kernel) (by decide +kernel) (by decide +kernel) ⟨.attributeError, by decide +kernel⟩ (by decide +kernel) (by decide +kernel)).1

end Suprb
