import Verif.Model.Merge
import Verif.Spec.Layering
/-! Lemmas about maps, views and merging. -/
namespace Verif
open Spec

section HM
variable {α : Type}

@[simp] theorem hmGet_nil (k : String) : hmGet ([] : List (String × α)) k = none := rfl
theorem hmGet_cons (e : String × α) (r : List (String × α)) (k : String) :
    hmGet (e :: r) k = if e.1 = k then some e.2 else hmGet r k := rfl

theorem hmGet_insert (m : List (String × α)) (k : String) (v : α) (j : String) :
    hmGet (hmInsert m k v) j = if k = j then some v else hmGet m j := by
  induction m with
  | nil => simp [hmInsert, hmGet]
  | cons e r ih =>
    obtain ⟨k', v'⟩ := e
    by_cases h : k' = k
    · subst h
      simp only [hmInsert, if_true, hmGet]
      by_cases hj : k' = j <;> simp [hj]
    · simp only [hmInsert, h, if_false, hmGet, ih]
      by_cases hj : k' = j
      · subst hj; simp [Ne.symm h]
      · simp [hj]

theorem hmGet_eq_none {m : List (String × α)} {k : String} :
    hmGet m k = none ↔ k ∉ m.map Prod.fst := by
  induction m with
  | nil => simp
  | cons e r ih =>
    rw [hmGet_cons]
    by_cases h : e.1 = k
    · simp [h]
    · simp [h, ih, Ne.symm h]

theorem hmGet_isSome {m : List (String × α)} {k : String} :
    (hmGet m k).isSome ↔ k ∈ m.map Prod.fst := by
  rw [← Option.ne_none_iff_isSome, Ne, hmGet_eq_none, not_not]

theorem hmGet_mem {m : List (String × α)} {k : String} {v : α} (h : hmGet m k = some v) : (k, v) ∈ m := by
  induction m with
  | nil => simp at h
  | cons e r ih =>
    rw [hmGet_cons] at h
    by_cases hk : e.1 = k
    · simp [hk] at h; subst hk; subst h; simp
    · simp [hk] at h; exact List.mem_cons_of_mem _ (ih h)

theorem hmGet_of_mem {m : List (String × α)} (hn : (m.map Prod.fst).Nodup) {k : String} {v : α}
    (h : (k, v) ∈ m) : hmGet m k = some v := by
  induction m with
  | nil => simp at h
  | cons e r ih =>
    rw [hmGet_cons]
    simp only [List.map_cons, List.nodup_cons] at hn
    rcases List.mem_cons.1 h with rfl | h
    · simp
    · have : e.1 ≠ k := by
        rintro rfl; exact hn.1 (List.mem_map.2 ⟨(e.1, v), h, rfl⟩)
      simp [this, ih hn.2 h]

theorem keys_insert (m : List (String × α)) (k : String) (v : α) :
    (hmInsert m k v).map Prod.fst = if k ∈ m.map Prod.fst then m.map Prod.fst else m.map Prod.fst ++ [k] := by
  induction m with
  | nil => simp [hmInsert]
  | cons e r ih =>
    obtain ⟨k', v'⟩ := e
    by_cases h : k' = k
    · subst h; simp [hmInsert]
    · simp only [hmInsert, h, if_false, List.map_cons, ih, List.mem_cons, Ne.symm h, false_or]
      split <;> simp

theorem nodup_insert {m : List (String × α)} (h : (m.map Prod.fst).Nodup) (k : String) (v : α) :
    ((hmInsert m k v).map Prod.fst).Nodup := by
  rw [keys_insert]
  split
  · exact h
  · rename_i hk
    rw [List.nodup_append]
    refine ⟨h, by simp, ?_⟩
    intro a ha b hb
    simp at hb; subst hb
    rintro rfl; exact hk ha

theorem length_insert (m : List (String × α)) (k : String) (v : α) :
    (hmInsert m k v).length = if k ∈ m.map Prod.fst then m.length else m.length + 1 := by
  have := congrArg List.length (keys_insert m k v)
  rw [List.length_map] at this
  rw [this]; split <;> simp

theorem mem_insert {m : List (String × α)} {k : String} {v : α} {e : String × α}
    (h : e ∈ hmInsert m k v) : e = (k, v) ∨ e ∈ m := by
  induction m with
  | nil => simp [hmInsert] at h; exact Or.inl h
  | cons e' r ih =>
    obtain ⟨k', v'⟩ := e'
    by_cases hk : k' = k
    · subst hk
      simp only [hmInsert, if_true, List.mem_cons] at h
      rcases h with rfl | h
      · exact Or.inl rfl
      · exact Or.inr (List.mem_cons_of_mem _ h)
    · simp only [hmInsert, hk, if_false, List.mem_cons] at h
      rcases h with rfl | h
      · exact Or.inr (by simp)
      · rcases ih h with h | h
        · exact Or.inl h
        · exact Or.inr (List.mem_cons_of_mem _ h)

end HM

/-! ## child / view -/

theorem child_key_map (m : Entries) (k : String) : child (.map m) (.key k) = hmGet m k := by
  show (m.find? (fun e => e.1 == k)).map Prod.snd = _
  induction m with
  | nil => rfl
  | cons e r ih =>
    rw [hmGet_cons]
    by_cases h : e.1 = k
    · simp [h]
    · rw [List.find?_cons_of_neg (by simpa using h), ih]; simp [h]

theorem child_key_nonmap {v : Value} (h : v.isMap = false) (k : String) : child v (.key k) = none := by
  cases v <;> simp_all [child, Value.isMap]

theorem view_nil (v : Value) : view v [] = some (head v) := rfl
theorem view_cons (v : Value) (s : Step) (p : Path) :
    view v (s :: p) = (child v s).bind (fun w => view w p) := rfl
theorem view_key_map (m : Entries) (k : String) (p : Path) :
    view (.map m) (.key k :: p) = (hmGet m k).bind (fun w => view w p) := by
  rw [view_cons, child_key_map]
theorem view_idx_map (m : Entries) (i : Nat) (p : Path) : view (.map m) (.idx i :: p) = none := rfl

theorem view_append (v : Value) (p q : Path) :
    view v (p ++ q) = match p with
      | [] => view v q
      | s :: p => (child v s).bind (fun w => view w (p ++ q)) := by
  cases p <;> rfl

theorem head_map_iff {v : Value} : head v = .map ↔ v.isMap = true := by
  cases v <;> simp [head, Value.isMap]

/-- A prefix that leads nowhere: neither does any extension. -/
theorem view_none_append {v : Value} {p : Path} (h : view v p = none) (q : Path) : view v (p ++ q) = none := by
  induction p generalizing v with
  | nil => simp [view] at h
  | cons s p ih =>
    rw [List.cons_append, view_cons]
    rw [view_cons] at h
    cases hc : child v s with
    | none => rfl
    | some w => rw [hc] at h; exact ih h

/-! ## UniqueKeys -/

theorem uniqueKeysList_iff {xs : List Value} : UniqueKeysList xs ↔ ∀ v ∈ xs, UniqueKeys v := by
  induction xs with
  | nil => simp [UniqueKeysList]
  | cons v r ih => simp [UniqueKeysList, ih]

theorem uniqueKeysMap_iff {m : Entries} : UniqueKeysMap m ↔ ∀ e ∈ m, UniqueKeys e.2 := by
  induction m with
  | nil => simp [UniqueKeysMap]
  | cons e r ih =>
    obtain ⟨k, v⟩ := e
    simp [UniqueKeysMap, UniqueKeysEntry, ih]

theorem uniqueKeys_map {m : Entries} :
    UniqueKeys (.map m) ↔ (m.map Prod.fst).Nodup ∧ ∀ e ∈ m, UniqueKeys e.2 := by
  rw [UniqueKeys, uniqueKeysMap_iff]

theorem uniqueKeys_array {xs : List Value} : UniqueKeys (.array xs) ↔ ∀ v ∈ xs, UniqueKeys v := by
  rw [UniqueKeys, uniqueKeysList_iff]

theorem uniqueKeys_get {m : Entries} (h : UniqueKeys (.map m)) {k : String} {v : Value}
    (hg : hmGet m k = some v) : UniqueKeys v :=
  (uniqueKeys_map.1 h).2 _ (hmGet_mem hg)

theorem uniqueKeys_insert {m : Entries} {k : String} {v : Value} (h : UniqueKeys (.map m))
    (hv : UniqueKeys v) : UniqueKeys (.map (hmInsert m k v)) := by
  rw [uniqueKeys_map] at *
  refine ⟨nodup_insert h.1 k v, ?_⟩
  intro e he
  rcases mem_insert he with rfl | he
  · exact hv
  · exact h.2 e he

/-! ## merge, entry by entry -/

theorem mergeEntry_eq (lhs : Entries) (k : String) (v : Value) :
    mergeEntry lhs (k, v) = hmInsert lhs k
      (match hmGet lhs k with
        | some lv => if lv.isMap && v.isMap then lv.merge v else v
        | none => v) := by
  rw [mergeEntry]
  cases hmGet lhs k with
  | none => rfl
  | some lv => simp only; split <;> rfl

theorem merge_map_map (l r : Entries) : (Value.map l).merge (.map r) = .map (mergeEntries l r) := by
  rw [Value.merge]

theorem merge_of_not_map_right {a b : Value} (h : b.isMap = false) : a.merge b = a := by
  cases b <;> simp_all [Value.merge, Value.isMap]

theorem merge_of_not_map_left {a b : Value} (h : a.isMap = false) : a.merge b = a := by
  cases b with
  | map r => cases a <;> simp_all [Value.merge, Value.isMap]
  | _ => rw [Value.merge]; simp

theorem hmGet_mergeEntries (r : Entries) : ∀ (l : Entries), (r.map Prod.fst).Nodup → ∀ k,
    hmGet (mergeEntries l r) k =
      match hmGet r k with
      | none => hmGet l k
      | some v => match hmGet l k with
        | none => some v
        | some lv => some (if lv.isMap && v.isMap then lv.merge v else v) := by
  induction r with
  | nil => intro l _ k; rw [mergeEntries]; simp
  | cons e r ih =>
    intro l hn k
    obtain ⟨k', v⟩ := e
    simp only [List.map_cons, List.nodup_cons] at hn
    rw [mergeEntries, ih _ hn.2, mergeEntry_eq, hmGet_insert, hmGet_cons]
    by_cases hk : k' = k
    · subst hk
      have : hmGet r k' = none := hmGet_eq_none.2 hn.1
      rw [this]
      simp only [if_true]
      cases hmGet l k' <;> simp
    · simp only [hk, if_false]


mutual
theorem uniqueKeys_merge_aux : ∀ (b : Value), UniqueKeys b → ∀ a, UniqueKeys a → UniqueKeys (a.merge b)
  | .map r, hb, a, ha => by
    cases a with
    | map l =>
      rw [merge_map_map]
      exact uniqueKeys_mergeEntries_aux r (uniqueKeys_map.1 hb).2 l ha
    | _ => rw [merge_of_not_map_left rfl]; exact ha
  | .none, _, _, ha => ha
  | .boolean _, _, _, ha => ha
  | .integer _, _, _, ha => ha
  | .longInteger _, _, _, ha => ha
  | .uInteger _, _, _, ha => ha
  | .uLongInteger _, _, _, ha => ha
  | .float _, _, _, ha => ha
  | .string _, _, _, ha => ha
  | .array _, _, _, ha => ha
theorem uniqueKeys_mergeEntries_aux : ∀ (r : List (String × Value)), (∀ e ∈ r, UniqueKeys e.2) →
    ∀ l : Entries, UniqueKeys (.map l) → UniqueKeys (.map (mergeEntries l r))
  | [], _, l, hl => by rw [mergeEntries]; exact hl
  | e :: r, hr, l, hl => by
    rw [mergeEntries]
    exact uniqueKeys_mergeEntries_aux r (fun e' he => hr e' (List.mem_cons_of_mem _ he)) _
      (uniqueKeys_mergeEntry_aux e (hr e (by simp)) l hl)
theorem uniqueKeys_mergeEntry_aux : ∀ (e : String × Value), UniqueKeys e.2 →
    ∀ l : Entries, UniqueKeys (.map l) → UniqueKeys (.map (mergeEntry l e))
  | (k, v), hv, l, hl => by
    rw [mergeEntry_eq]
    apply uniqueKeys_insert hl
    split
    · rename_i lv hlv
      split
      · exact uniqueKeys_merge_aux v hv lv (uniqueKeys_get hl hlv)
      · exact hv
    · exact hv
end

theorem uniqueKeys_merge {a b : Value} (ha : UniqueKeys a) (hb : UniqueKeys b) : UniqueKeys (a.merge b) :=
  uniqueKeys_merge_aux b hb a ha

theorem isMap_merge (a b : Value) : (a.merge b).isMap = a.isMap := by
  cases a with
  | map l => cases b with
    | map r => rw [merge_map_map]; rfl
    | _ => rfl
  | _ => rw [merge_of_not_map_left rfl]

/-! ## Silent -/

theorem not_silent_nil (b : Value) : ¬ Silent b [] := by
  rintro ⟨q, k, r, h, _⟩; simp at h

theorem not_silent_nonmap {b : Value} (h : b.isMap = false) (p : Path) : ¬ Silent b p := by
  rintro ⟨q, k, r, _, h2, _⟩
  have := h2 [] (List.nil_prefix)
  rw [view_nil, Option.some.injEq, head_map_iff] at this
  simp [h] at this

theorem not_silent_idx (m : Entries) (i : Nat) (p : Path) : ¬ Silent (.map m) (.idx i :: p) := by
  rintro ⟨q, k, r, h, h2, _⟩
  cases q with
  | nil => simp at h
  | cons s q =>
    simp only [List.cons_append, List.cons.injEq] at h
    have := h2 [s] (by simp)
    rw [← h.1] at this
    simp [view_idx_map] at this

theorem silent_key_map (m : Entries) (k : String) (p : Path) :
    Silent (.map m) (.key k :: p) ↔
      match hmGet m k with
      | none => True
      | some w => Silent w p := by
  constructor
  · rintro ⟨q, k', r, h, h2, h3⟩
    cases hg : hmGet m k with
    | none => trivial
    | some w =>
      cases q with
      | nil =>
        simp only [List.nil_append, List.cons.injEq, Step.key.injEq] at h
        obtain ⟨rfl, rfl⟩ := h
        rw [List.nil_append, view_key_map, hg] at h3
        simp [view] at h3
      | cons s q =>
        simp only [List.cons_append, List.cons.injEq] at h
        obtain ⟨rfl, rfl⟩ := h
        refine ⟨q, k', r, rfl, ?_, ?_⟩
        · intro q' hq'
          have := h2 (.key k :: q') (by simpa using hq')
          rw [view_key_map, hg] at this
          exact this
        · rw [List.cons_append, view_key_map, hg] at h3
          exact h3
  · cases hg : hmGet m k with
    | none =>
      intro _
      refine ⟨[], k, p, rfl, ?_, ?_⟩
      · intro q' hq'
        rw [List.prefix_nil] at hq'; subst hq'; rfl
      · rw [List.nil_append, view_key_map, hg]; rfl
    | some w =>
      rintro ⟨q, k', r, rfl, h2, h3⟩
      refine ⟨.key k :: q, k', r, rfl, ?_, ?_⟩
      · intro q' hq'
        cases q' with
        | nil => rfl
        | cons s q' =>
          simp only [List.cons_prefix_cons] at hq'
          obtain ⟨rfl, hq'⟩ := hq'
          rw [view_key_map, hg]; exact h2 q' hq'
      · rw [List.cons_append, view_key_map, hg]; exact h3

theorem silent_extend {b : Value} {p : Path} (h : Silent b p) (r : Path) : Silent b (p ++ r) := by
  obtain ⟨q, k, r', rfl, h2, h3⟩ := h
  exact ⟨q, k, r' ++ r, by simp, h2, h3⟩

theorem view_of_silent {b : Value} {p : Path} (h : Silent b p) : view b p = none := by
  obtain ⟨q, k, r, rfl, _, h3⟩ := h
  have : q ++ Step.key k :: r = (q ++ [Step.key k]) ++ r := by simp
  rw [this]; exact view_none_append h3 r

theorem isMap_cases (v : Value) : (∃ m, v = .map m) ∨ v.isMap = false := by
  cases v <;> simp [Value.isMap]

/-- Merge, path by path. -/
theorem view_merge (p : Path) : ∀ (l r : Entries), UniqueKeys (.map r) →
    (Silent (.map r) p → view ((Value.map l).merge (.map r)) p = view (.map l) p) ∧
    (¬ Silent (.map r) p → view ((Value.map l).merge (.map r)) p = view (.map r) p) := by
  induction p with
  | nil =>
    intro l r hr
    refine ⟨fun h => absurd h (not_silent_nil _), fun _ => ?_⟩
    rw [merge_map_map]; rfl
  | cons s p ih =>
    intro l r hr
    rw [merge_map_map]
    cases s with
    | idx i =>
      refine ⟨fun h => absurd h (not_silent_idx _ _ _), fun _ => ?_⟩
      rw [view_idx_map, view_idx_map]
    | key k =>
      rw [view_key_map, view_key_map, view_key_map, silent_key_map,
        hmGet_mergeEntries r l (uniqueKeys_map.1 hr).1 k]
      cases hg : hmGet r k with
      | none => simp
      | some v =>
        cases hl : hmGet l k with
        | none =>
          simp only [Option.bind_some, Option.bind_none]
          exact ⟨fun h => view_of_silent h, fun _ => trivial⟩
        | some lv =>
          simp only [Option.bind_some]
          rcases isMap_cases v with ⟨mv, rfl⟩ | hv
          · rcases isMap_cases lv with ⟨ml, rfl⟩ | hlv
            · simp only [Value.isMap, Bool.and_self, if_true]
              exact ih ml mv (uniqueKeys_get hr hg)
            · rw [hlv]
              simp only [Bool.false_and, Bool.false_eq_true, if_false]
              refine ⟨fun h => ?_, fun _ => trivial⟩
              rw [view_of_silent h]
              -- below a non-map of the base nothing can be reached along keys
              symm
              cases p with
              | nil => exact absurd h (not_silent_nil _)
              | cons s p =>
                cases s with
                | idx i => exact absurd h (not_silent_idx _ _ _)
                | key k => rw [view_cons, child_key_nonmap hlv]; rfl
          · have : (lv.isMap && v.isMap) = false := by simp [hv]
            rw [this]
            exact ⟨fun h => absurd h (not_silent_nonmap hv p), fun _ => rfl⟩

end Verif
