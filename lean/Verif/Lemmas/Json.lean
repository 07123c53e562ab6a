import Verif.Model.Json
import Verif.Lemmas.Composition

/-!
# Lemmas about strings, dicts and the rounds of `_deserialize_config`
-/

set_option autoImplicit false
set_option linter.unusedSectionVars false

namespace Suprb

namespace Json

/-! ### Strings -/

theorem splitSep_ne_nil (s : Str) : splitSep s ≠ [] := by
  fun_induction splitSep s with
  | case1 => simp
  | case2 => simp
  | case3 => simp
  | case4 a b r _ ih =>
    cases h : splitSep (b :: r) with
    | nil => exact absurd h ih
    | cons h t => simp [consHead]

theorem joinSep_consHead (c : Char) (l : List Str) (h : l ≠ []) : joinSep (consHead c l) = c :: joinSep l := by
  match l, h with
  | [p], _ => rfl
  | p :: q :: rest, _ => rfl

theorem joinSep_nil_cons (l : List Str) (h : l ≠ []) : joinSep ([] :: l) = '_' :: '_' :: joinSep l := by
  match l, h with
  | q :: rest, _ => rfl

theorem joinSep_splitSep (s : Str) : joinSep (splitSep s) = s := by
  fun_induction splitSep s with
  | case1 => rfl
  | case2 => rfl
  | case3 a b r h ih =>
    rw [joinSep_nil_cons _ (splitSep_ne_nil r), ih, h.1, h.2]
  | case4 a b r _ ih =>
    rw [joinSep_consHead _ _ (splitSep_ne_nil _), ih]

theorem joinSep_cons (p : Str) (l : List Str) (h : l ≠ []) : joinSep (p :: l) = p ++ '_' :: '_' :: joinSep l := by
  match l, h with
  | q :: rest, _ => rfl

/-- Dropping the last part gives a prefix, a proper one if the string is not empty. -/
theorem joinSep_dropLast (l : List Str) : joinSep l.dropLast <+: joinSep l ∧ (joinSep l ≠ [] → joinSep l.dropLast ≠ joinSep l) := by
  induction l with
  | nil => exact ⟨List.prefix_rfl, fun h => absurd rfl h⟩
  | cons p l ih =>
    cases l with
    | nil => exact ⟨List.nil_prefix, fun h => h.symm⟩
    | cons q rest =>
      rw [List.dropLast_cons_of_ne_nil (by simp)]
      cases hr : (q :: rest).dropLast with
      | nil =>
        refine ⟨?_, fun _ h => ?_⟩
        · rw [joinSep_cons p (q :: rest) (by simp)]
          exact List.prefix_append _ _
        · rw [joinSep_cons p (q :: rest) (by simp)] at h
          have := congrArg List.length h
          simp [joinSep] at this
      | cons q' r' =>
        rw [joinSep_cons p (q :: rest) (by simp), joinSep_cons p (q' :: r') (by simp), ← hr]
        refine ⟨?_, fun _ h => ?_⟩
        · refine (List.prefix_append_right_inj _).mpr ?_
          exact (List.prefix_cons_inj _).mpr ((List.prefix_cons_inj _).mpr ih.1)
        · have h' := List.append_cancel_left h
          simp only [List.cons.injEq, true_and] at h'
          refine ih.2 (fun he => ?_) h'
          rw [he] at h'
          have hl := congrArg List.length h'
          rw [hr] at hl
          cases r' with
          | nil =>
            cases rest with
            | nil => simp at hr
            | cons r rs =>
              rw [joinSep_cons q (r :: rs) (by simp)] at he
              simp at he
          | cons r rs => rw [joinSep_cons q' (r :: rs) (by simp)] at hl; simp at hl

/-! ### Dicts -/

/-- The keys. -/
def Dict.keys (d : Dict) : List Str := d.map Prod.fst

theorem Dict.mem_keys_of_get (d : Dict) (k : Str) (v : Val) (h : d.get k = some v) : (k, v) ∈ d := by
  induction d with
  | nil => cases h
  | cons p d ih =>
    obtain ⟨k', v'⟩ := p
    unfold Dict.get at h
    split at h
    · rename_i hk
      cases h; subst hk; exact List.mem_cons_self ..
    · exact List.mem_cons_of_mem _ (ih h)

theorem Dict.get_of_mem (d : Dict) (hn : d.keys.Nodup) (k : Str) (v : Val) (h : (k, v) ∈ d) : d.get k = some v := by
  induction d with
  | nil => cases h
  | cons p d ih =>
    obtain ⟨k', v'⟩ := p
    unfold Dict.keys at hn
    rw [List.map_cons, List.nodup_cons] at hn
    unfold Dict.get
    rcases List.mem_cons.mp h with h | h
    · cases h; rw [if_pos rfl]
    · rw [if_neg, ih hn.2 h]
      rintro rfl
      exact hn.1 (List.mem_map.mpr ⟨_, h, rfl⟩)

theorem Dict.keys_set (d : Dict) (k : Str) (v : Val) (h : k ∈ d.keys) : (d.set k v).keys = d.keys := by
  induction d with
  | nil => cases h
  | cons p d ih =>
    obtain ⟨k', v'⟩ := p
    unfold Dict.set
    split
    · rfl
    · rename_i hk
      unfold Dict.keys at h ih ⊢
      rw [List.map_cons] at h
      rcases List.mem_cons.mp h with h | h
      · exact absurd h.symm hk
      · rw [List.map_cons, List.map_cons, ih h]

theorem Dict.mem_set (d : Dict) (k : Str) (v : Val) (h : k ∈ d.keys) (hn : d.keys.Nodup) (k' : Str) (v' : Val) :
    (k', v') ∈ d.set k v ↔ (k' = k ∧ v' = v) ∨ (k' ≠ k ∧ (k', v') ∈ d) := by
  induction d with
  | nil => cases h
  | cons p d ih =>
    obtain ⟨k0, v0⟩ := p
    unfold Dict.keys at h hn ih
    rw [List.map_cons] at h hn
    rw [List.nodup_cons] at hn
    unfold Dict.set
    split
    · rename_i hk
      subst hk
      simp only [List.mem_cons, Prod.mk.injEq]
      constructor
      · rintro (h1 | h1)
        · exact .inl h1
        · refine .inr ⟨fun hk => hn.1 ?_, .inr h1⟩
          rw [← hk]
          exact List.mem_map.mpr ⟨_, h1, rfl⟩
      · rintro (h | ⟨h1, h2 | h2⟩)
        · exact .inl h
        · exact absurd h2.1 h1
        · exact .inr h2
    · rename_i hk
      rcases List.mem_cons.mp h with h | h
      · exact absurd h.symm hk
      · rw [List.mem_cons, ih h hn.2, List.mem_cons]
        constructor
        · rintro (h | h | h)
          · right
            cases h
            exact ⟨hk, .inl rfl⟩
          · exact .inl h
          · exact .inr ⟨h.1, .inr h.2⟩
        · rintro (h | ⟨h1, h2 | h2⟩)
          · exact .inr (.inl h)
          · exact .inl h2
          · exact .inr (.inr ⟨h1, h2⟩)

/-- `collect` removes exactly the keys it visits. -/
theorem foldlM_collect (W : Classes) (ks : List Str) (acc acc' : Dict × Dict) (h : ks.foldlM (collectKey W) acc = .ok acc') :
    acc'.2 = acc.2.filter fun e => e.1 ∉ ks := by
  induction ks generalizing acc with
  | nil =>
    cases h
    simp
  | cons k ks ih =>
    rw [List.foldlM_cons] at h
    cases h1 : collectKey W acc k with
    | error e => rw [h1] at h; cases h
    | ok a =>
      rw [h1] at h
      have h2 : a.2 = acc.2.del k := by
        unfold collectKey at h1
        split at h1
        · cases h1
        · split at h1
          · split at h1
            · cases h1; rfl
            · split at h1
              · split at h1
                · cases h1
                · cases h1; rfl
              · cases h1; rfl
          · cases h1; rfl
      rw [ih a h, h2]
      unfold Dict.del
      rw [List.filter_filter]
      congr 1
      funext e
      simp only [List.mem_cons, not_or, ne_eq]
      by_cases h1 : e.1 = k <;> by_cases h2 : e.1 ∈ ks <;> simp [h1, h2]

theorem pyMax_mem {α : Type} (key : α → Nat) (l : List α) (b : α) (h : pyMax key l = some b) : b ∈ l ∧ ∀ x ∈ l, key x ≤ key b :=
  pyMax_spec key l b h

/-- Anatomy of a successful round. -/
theorem round_ok (W : Classes) (d d' : Dict) (h : round W d = .ok d') :
    ∃ longest v v' params d1 s o, (longest, v) ∈ d ∧ (∀ e ∈ d, countSep e.1 ≤ countSep longest) ∧ updateLongest W v = .ok v' ∧
      collect W (d.set longest v') (joinSep (splitSep longest).dropLast) = .ok (params, d1) ∧
      d1.get (joinSep (splitSep longest).dropLast) = some (.str s) ∧ construct W (className s) params = .ok o ∧
      d' = d1.set (joinSep (splitSep longest).dropLast) o := by
  unfold round at h
  split at h
  · cases h
  · rename_i longest v hmax
    obtain ⟨h1, h2⟩ := pyMax_mem _ _ _ hmax
    dsimp only at h
    split at h
    · cases h
    · rename_i v' hv'
      split at h
      · cases h
      · rename_i params d1 hc
        split at h
        · cases h
        · rename_i s hs
          split at h
          · cases h
          · rename_i o ho
            cases h
            exact ⟨longest, v, v', params, d1, s, o, h1, h2, hv', hc, hs, ho, rfl⟩
        · cases h

/-- A round keeps keys unique and removes at least one. -/
theorem round_keys (W : Classes) (d d' : Dict) (hn : d.keys.Nodup) (hm : more d = true) (h : round W d = .ok d') :
    d'.keys.Nodup ∧ d'.length < d.length := by
  obtain ⟨longest, v, v', params, d1, s, o, hmem, _, _, hcol, hget, _, rfl⟩ := round_ok W d d' h
  have hk : longest ∈ d.keys := List.mem_map.mpr ⟨_, hmem, rfl⟩
  have hset : (d.set longest v').keys = d.keys := Dict.keys_set d longest v' hk
  generalize hb : joinSep (splitSep longest).dropLast = base at *
  have hd1 := foldlM_collect W _ _ _ hcol
  dsimp only at hd1
  have hbase : base ∈ d1.keys := List.mem_map.mpr ⟨_, Dict.mem_keys_of_get d1 base _ hget, rfl⟩
  have hsub : d1.keys.Sublist d.keys := by
    rw [← hset, hd1]
    exact List.filter_sublist.map _
  have hlen : ∀ e : Dict, e.length = e.keys.length := fun e => (List.length_map _).symm
  refine ⟨by rw [Dict.keys_set d1 base o hbase]; exact hn.sublist hsub, ?_⟩
  rw [hlen, Dict.keys_set d1 base o hbase, hlen d]
  -- some key is visited
  have hkey : ∃ k ∈ d.keys, k ∈ sameBase (d.set longest v') base := by
    obtain ⟨hp, hne⟩ := joinSep_dropLast (splitSep longest)
    rw [joinSep_splitSep, hb] at hp hne
    by_cases hl : longest = []
    · subst hl
      have hb' : base = [] := List.prefix_nil.mp hp
      subst hb'
      by_contra hall
      push Not at hall
      have hnil : ∀ k ∈ d.keys, k = [] := by
        intro k hk'
        by_contra hk0
        refine hall k hk' ?_
        unfold sameBase
        rw [List.mem_filter]
        refine ⟨?_, by simp [hk0]⟩
        change k ∈ Dict.keys _
        rw [hset]; exact hk'
      have : d.flatMap Prod.fst = [] := by
        rw [List.flatMap_eq_nil_iff]
        intro e he
        exact hnil e.1 (List.mem_map.mpr ⟨e, he, rfl⟩)
      unfold more at hm
      rw [this] at hm
      cases hm
    · refine ⟨longest, hk, ?_⟩
      unfold sameBase
      rw [List.mem_filter]
      refine ⟨?_, ?_⟩
      · change longest ∈ Dict.keys _
        rw [hset]; exact hk
      · rw [Bool.and_eq_true, List.isPrefixOf_iff_prefix]
        exact ⟨hp, by simpa using fun h => hne hl h.symm⟩
  obtain ⟨k, hk1, hk2⟩ := hkey
  have hnot : k ∉ d1.keys := by
    rw [hd1]
    intro hmem
    obtain ⟨e, he, rfl⟩ := List.mem_map.mp hmem
    have := (List.mem_filter.mp he).2
    simp at this
    exact this hk2
  have hle := hsub.length_le
  refine lt_of_le_of_ne hle fun heq => ?_
  rw [hsub.eq_of_length heq] at hnot
  exact hnot hk1

end Json

end Suprb
