import Verif.Lemmas.Merge
import Mathlib.Data.List.Perm.Subperm
/-! Further lemmas about merging: congruence, grouping, key sets. -/
namespace Verif
open Spec

theorem Same.refl (a : Value) : Same a a := fun _ => rfl
theorem Same.symm {a b : Value} (h : Same a b) : Same b a := fun p => (h p).symm
theorem Same.trans {a b c : Value} (h : Same a b) (h' : Same b c) : Same a c :=
  fun p => (h p).trans (h' p)

theorem same_isMap {a b : Value} (h : Same a b) : a.isMap = b.isMap := by
  have := h []
  rw [view_nil, view_nil, Option.some.injEq] at this
  rcases isMap_cases a with ⟨m, rfl⟩ | ha
  · have : head b = .map := this ▸ rfl
    rw [head_map_iff] at this; rw [this]; rfl
  · rcases isMap_cases b with ⟨m, rfl⟩ | hb
    · have : head a = .map := this.trans rfl
      rw [head_map_iff] at this; rw [this]; rfl
    · rw [ha, hb]

theorem silent_congr {a b : Value} (h : Same a b) (p : Path) : Silent a p ↔ Silent b p := by
  unfold Silent
  constructor
  · rintro ⟨q, k, r, e, h2, h3⟩
    exact ⟨q, k, r, e, fun q' hq => (h q') ▸ h2 q' hq, (h _) ▸ h3⟩
  · rintro ⟨q, k, r, e, h2, h3⟩
    exact ⟨q, k, r, e, fun q' hq => (h q').symm ▸ h2 q' hq, (h _).symm ▸ h3⟩

/-- `view_merge` for arbitrary map values. -/
theorem view_merge' {a b : Value} (ha : a.isMap = true) (hb : b.isMap = true) (hu : UniqueKeys b) (p : Path) :
    (Silent b p → view (a.merge b) p = view a p) ∧ (¬ Silent b p → view (a.merge b) p = view b p) := by
  rcases isMap_cases a with ⟨l, rfl⟩ | h
  · rcases isMap_cases b with ⟨r, rfl⟩ | h
    · exact view_merge p l r hu
    · simp [h] at hb
  · simp [h] at ha

theorem merge_congr {a a' b b' : Value} (ha : Same a a') (hb : Same b b')
    (hu : UniqueKeys b) (hu' : UniqueKeys b') : Same (a.merge b) (a'.merge b') := by
  by_cases h1 : b.isMap = true
  · by_cases h2 : a.isMap = true
    · have h1' : b'.isMap = true := same_isMap hb ▸ h1
      have h2' : a'.isMap = true := same_isMap ha ▸ h2
      intro p
      by_cases hs : Silent b p
      · rw [(view_merge' h2 h1 hu p).1 hs, (view_merge' h2' h1' hu' p).1 ((silent_congr hb p).1 hs)]
        exact ha p
      · rw [(view_merge' h2 h1 hu p).2 hs,
          (view_merge' h2' h1' hu' p).2 (fun h => hs ((silent_congr hb p).2 h))]
        exact hb p
    · have h2f : a.isMap = false := by simpa using h2
      have h2f' : a'.isMap = false := same_isMap ha ▸ h2f
      rw [merge_of_not_map_left h2f, merge_of_not_map_left h2f']; exact ha
  · have h1f : b.isMap = false := by simpa using h1
    have h1f' : b'.isMap = false := same_isMap hb ▸ h1f
    rw [merge_of_not_map_right h1f, merge_of_not_map_right h1f']; exact ha

theorem isMap_map (m : Entries) : (Value.map m).isMap = true := rfl

/-! ## Grouping -/

theorem not_clobbers_child {mb mc : Entries} (h : ¬ Clobbers (.map mb) (.map mc)) {k : String} {vb vc : Value}
    (hb : hmGet mb k = some vb) (hc : hmGet mc k = some vc) : ¬ Clobbers vb vc := by
  rintro ⟨q, h1, hd, h2, h3⟩
  apply h
  refine ⟨k :: q, ?_, hd, ?_, h3⟩
  · show view _ (.key k :: keys q) = _
    rw [view_key_map, hc]; exact h1
  · show view _ (.key k :: keys q) = _
    rw [view_key_map, hb]; exact h2

theorem clobbers_nonmap_map {vb : Value} (hb : vb.isMap = false) (mc : Entries) : Clobbers vb (.map mc) :=
  ⟨[], rfl, head vb, rfl, fun h => by rw [head_map_iff, hb] at h; cases h⟩

theorem merge_get_cases (l r : Entries) (hn : (r.map Prod.fst).Nodup) (k : String) :
    hmGet (mergeEntries l r) k =
      match hmGet r k, hmGet l k with
      | none, x => x
      | some v, none => some v
      | some v, some lv => some (if lv.isMap && v.isMap then lv.merge v else v) := by
  rw [hmGet_mergeEntries r l hn k]
  cases hmGet r k <;> cases hmGet l k <;> rfl

theorem merge_assoc_view (p : Path) : ∀ (ma mb mc : Entries), UniqueKeys (.map mb) → UniqueKeys (.map mc) →
    ¬ Clobbers (.map mb) (.map mc) →
    view (((Value.map ma).merge (.map mb)).merge (.map mc)) p =
      view ((Value.map ma).merge ((Value.map mb).merge (.map mc))) p := by
  induction p with
  | nil => intro ma mb mc _ _ _; rw [merge_map_map, merge_map_map, merge_map_map, merge_map_map]; rfl
  | cons s p ih =>
    intro ma mb mc hb hc hcl
    rw [merge_map_map, merge_map_map, merge_map_map, merge_map_map]
    cases s with
    | idx i => rw [view_idx_map, view_idx_map]
    | key k =>
      have hbn := (uniqueKeys_map.1 hb).1
      have hcn := (uniqueKeys_map.1 hc).1
      have hbcn : ((mergeEntries mb mc).map Prod.fst).Nodup := by
        have := uniqueKeys_merge hb hc
        rw [merge_map_map] at this
        exact (uniqueKeys_map.1 this).1
      rw [view_key_map, view_key_map, merge_get_cases _ _ hcn, merge_get_cases _ _ hbn,
        merge_get_cases _ _ hbcn, merge_get_cases _ _ hcn]
      cases hgc : hmGet mc k with
      | none => rfl
      | some vc =>
        cases hgb : hmGet mb k with
        | none => rfl
        | some vb =>
          have hcl' := not_clobbers_child hcl hgb hgc
          cases hga : hmGet ma k with
          | none => rfl
          | some va =>
            simp only [Option.bind_some]
            rcases isMap_cases vc with ⟨mvc, rfl⟩ | hvc
            · rcases isMap_cases vb with ⟨mvb, rfl⟩ | hvb
              · rcases isMap_cases va with ⟨mva, rfl⟩ | hva
                · simp only [isMap_map, Bool.and_self, if_true, isMap_merge]
                  exact ih mva mvb mvc (uniqueKeys_get hb hgb) (uniqueKeys_get hc hgc) hcl'
                · simp [isMap_map, hva, isMap_merge]
              · exact absurd (clobbers_nonmap_map hvb mvc) hcl'
            · simp [hvc]

/-- A key that none of the given keys equals. -/
theorem exists_fresh (ks : List String) : ∃ k, k ∉ ks := by
  let n := (ks.map String.length).foldr max 0
  refine ⟨String.ofList (List.replicate (n + 1) 'x'), fun h => ?_⟩
  have hl : ∀ (l : List String) (s : String), s ∈ l → s.length ≤ (l.map String.length).foldr max 0 := by
    intro l s hs
    induction l with
    | nil => simp at hs
    | cons t l ih =>
      simp only [List.map_cons, List.foldr_cons]
      rcases List.mem_cons.1 hs with rfl | hs
      · omega
      · have := ih hs; omega
  have := hl ks _ h
  simp at this
  omega

/-- If `c` clobbers `b`, some `a` distinguishes the two groupings. -/
theorem clobbers_distinguish (q : List String) : ∀ (mb mc : Entries), UniqueKeys (.map mb) → UniqueKeys (.map mc) →
    view (.map mc) (keys q) = some .map → (∃ h, view (.map mb) (keys q) = some h ∧ h ≠ .map) →
    ∃ (x : String), ∃ ma : Entries, UniqueKeys (.map ma) ∧
      view (((Value.map ma).merge (.map mb)).merge (.map mc)) (keys (q ++ [x])) ≠
        view ((Value.map ma).merge ((Value.map mb).merge (.map mc))) (keys (q ++ [x])) := by
  induction q with
  | nil => rintro mb mc _ _ _ ⟨h, h1, h2⟩; simp [keys, view, head] at h1; exact absurd h1.symm h2
  | cons k q ih =>
    intro mb mc hb hc hqc ⟨h, hqb, hne⟩
    have hbn := (uniqueKeys_map.1 hb).1
    have hcn := (uniqueKeys_map.1 hc).1
    have hbcn : ((mergeEntries mb mc).map Prod.fst).Nodup := by
      have := uniqueKeys_merge hb hc
      rw [merge_map_map] at this
      exact (uniqueKeys_map.1 this).1
    change view _ (.key k :: keys q) = _ at hqc hqb
    rw [view_key_map] at hqc hqb
    cases hgc : hmGet mc k with
    | none => simp [hgc] at hqc
    | some vc =>
      cases hgb : hmGet mb k with
      | none => simp [hgb] at hqb
      | some vb =>
        rw [hgc, Option.bind_some] at hqc
        rw [hgb, Option.bind_some] at hqb
        have hvc : vc.isMap = true := by
          rcases isMap_cases vc with ⟨m, rfl⟩ | hv
          · rfl
          · cases q with
            | nil => simp only [keys, List.map_nil, view_nil, Option.some.injEq, head_map_iff] at hqc; exact hqc
            | cons k' q => 
              change view _ (.key k' :: _) = _ at hqc
              rw [view_cons, child_key_nonmap hv] at hqc; simp at hqc
        obtain ⟨mvc, rfl⟩ : ∃ m, vc = .map m := (isMap_cases vc).resolve_right (by simp [hvc])
        by_cases hvb : vb.isMap = true
        · obtain ⟨mvb, rfl⟩ : ∃ m, vb = .map m := (isMap_cases vb).resolve_right (by simp [hvb])
          obtain ⟨x, ma, hua, hd⟩ := ih mvb mvc (uniqueKeys_get hb hgb) (uniqueKeys_get hc hgc) hqc ⟨h, hqb, hne⟩
          refine ⟨x, [(k, .map ma)], by rw [uniqueKeys_map]; simpa using hua, ?_⟩
          change view _ (.key k :: keys (q ++ [x])) ≠ view _ (.key k :: keys (q ++ [x]))
          rw [merge_map_map, merge_map_map, merge_map_map, merge_map_map, view_key_map, view_key_map,
            merge_get_cases _ _ hcn, merge_get_cases _ _ hbn, merge_get_cases _ _ hbcn,
            merge_get_cases _ _ hcn, hgc, hgb]
          simpa [hmGet, isMap_map, isMap_merge] using hd
        · -- `b` holds a non-map at `k`, so the path ends here
          have hvbf : vb.isMap = false := by simpa using hvb
          have hq : q = [] := by
            cases q with
            | nil => rfl
            | cons k' q =>
              change view _ (.key k' :: _) = _ at hqb
              rw [view_cons, child_key_nonmap hvbf] at hqb; simp at hqb
          subst hq
          obtain ⟨x, hx⟩ := exists_fresh (mvc.map Prod.fst)
          have hxg : hmGet mvc x = none := hmGet_eq_none.2 hx
          refine ⟨x, [(k, .map [(x, .none)])], by simp [UniqueKeys, UniqueKeysMap, UniqueKeysEntry], ?_⟩
          change view _ (.key k :: .key x :: []) ≠ view _ (.key k :: .key x :: [])
          rw [merge_map_map, merge_map_map, merge_map_map, merge_map_map, view_key_map, view_key_map,
            merge_get_cases _ _ hcn, merge_get_cases _ _ hbn, merge_get_cases _ _ hbcn,
            merge_get_cases _ _ hcn, hgc, hgb]
          have hmvc := (uniqueKeys_map.1 (uniqueKeys_get hc hgc)).1
          have e1 : (Value.map [(x, Value.none)]).isMap = true := rfl
          have e2 : (Value.map mvc).isMap = true := rfl
          simp only [hmGet, if_true, hvbf, Bool.and_false, Bool.false_eq_true, if_false,
            Bool.false_and, Option.bind_some, e1, e2, Bool.and_self]
          rw [merge_map_map, view_key_map, view_key_map, merge_get_cases _ _ hmvc, hxg]
          simp [hmGet, view]

/-! ## Key sets -/

theorem mem_keys_mergeEntries (l r : Entries) (hn : (r.map Prod.fst).Nodup) (k : String) :
    k ∈ (mergeEntries l r).map Prod.fst ↔ k ∈ l.map Prod.fst ∨ k ∈ r.map Prod.fst := by
  rw [← hmGet_isSome, ← hmGet_isSome, ← hmGet_isSome, merge_get_cases l r hn]
  cases hmGet r k <;> cases hmGet l k <;> simp

theorem length_mergeEntries (r : Entries) : ∀ (l : Entries),
    l.length ≤ (mergeEntries l r).length ∧ (mergeEntries l r).length ≤ l.length + r.length := by
  induction r with
  | nil => intro l; rw [mergeEntries]; simp
  | cons e r ih =>
    intro l
    obtain ⟨k, v⟩ := e
    rw [mergeEntries]
    have := ih (mergeEntry l (k, v))
    rw [mergeEntry_eq, length_insert] at this
    rw [mergeEntry_eq]
    simp only [List.length_cons]
    split at this <;> omega

theorem length_mergeEntries_right (l r : Entries) (hn : (r.map Prod.fst).Nodup) :
    r.length ≤ (mergeEntries l r).length := by
  have hsub : r.map Prod.fst ⊆ (mergeEntries l r).map Prod.fst :=
    fun k hk => (mem_keys_mergeEntries l r hn k).2 (Or.inr hk)
  have := (List.subperm_of_subset hn hsub).length_le
  simpa using this

/-! ## Key paths -/

theorem keys_cons (k : String) (q : List String) : keys (k :: q) = .key k :: keys q := rfl

theorem get_of_child {v w : Value} {k : String} (h : child v (.key k) = some w) : v.get k = w := by
  rcases isMap_cases v with ⟨m, rfl⟩ | hv
  · rw [child_key_map] at h; simp [Value.get, h]
  · rw [child_key_nonmap hv] at h; cases h

theorem view_keys_prefix {v : Value} {q r : List String} (h : view v (keys (q ++ r)) = some .map) :
    view v (keys q) = some .map := by
  induction q generalizing v with
  | nil =>
    cases r with
    | nil => exact h
    | cons k r =>
      rcases isMap_cases v with ⟨m, rfl⟩ | hv
      · rfl
      · rw [List.nil_append, keys_cons, view_cons, child_key_nonmap hv] at h; cases h
  | cons k q ih =>
    rw [List.cons_append, keys_cons, view_cons] at h
    rw [keys_cons, view_cons]
    cases hc : child v (.key k) with
    | none => rw [hc] at h; cases h
    | some w => rw [hc, Option.bind_some] at h; exact ih h

theorem isMap_of_view_keys {v : Value} {q : List String} (h : view v (keys q) = some .map) : v.isMap = true := by
  have := view_keys_prefix (q := []) h
  simpa [keys, view, head_map_iff] using this

theorem foldl_get_map (q : List String) (v : Value) (h : view v (keys q) = some .map) :
    ∃ m, q.foldl Value.get v = .map m := by
  induction q generalizing v with
  | nil => exact (isMap_cases v).resolve_right (by simp [isMap_of_view_keys h])
  | cons k q ih =>
    rw [keys_cons, view_cons] at h
    cases hc : child v (.key k) with
    | none => rw [hc] at h; cases h
    | some w => rw [hc, Option.bind_some] at h; rw [List.foldl_cons, get_of_child hc]; exact ih w h

theorem uniqueKeys_get' {v : Value} (h : UniqueKeys v) (k : String) : UniqueKeys (v.get k) := by
  rcases isMap_cases v with ⟨m, rfl⟩ | hv
  · cases hg : hmGet m k with
    | none => simp [Value.get, hg, UniqueKeys]
    | some w => simpa [Value.get, hg] using uniqueKeys_get h hg
  · cases v <;> first | (simp [Value.get, UniqueKeys]; done) | simp [Value.isMap] at hv

theorem uniqueKeys_foldl_get (q : List String) (v : Value) (h : UniqueKeys v) : UniqueKeys (q.foldl Value.get v) := by
  induction q generalizing v with
  | nil => exact h
  | cons k q ih => exact ih _ (uniqueKeys_get' h k)

theorem foldl_get_merge (q : List String) (a b : Value) (hu : UniqueKeys b)
    (ha : view a (keys q) = some .map) (hb : view b (keys q) = some .map) :
    q.foldl Value.get (a.merge b) = (q.foldl Value.get a).merge (q.foldl Value.get b) := by
  induction q generalizing a b with
  | nil => rfl
  | cons k q ih =>
    obtain ⟨ma, rfl⟩ := (isMap_cases a).resolve_right (by simp [isMap_of_view_keys ha])
    obtain ⟨mb, rfl⟩ := (isMap_cases b).resolve_right (by simp [isMap_of_view_keys hb])
    rw [keys_cons, view_key_map] at ha hb
    cases hga : hmGet ma k with
    | none => rw [hga] at ha; cases ha
    | some va =>
      cases hgb : hmGet mb k with
      | none => rw [hgb] at hb; cases hb
      | some vb =>
        rw [hga, Option.bind_some] at ha
        rw [hgb, Option.bind_some] at hb
        have e1 : (Value.map ma).get k = va := by simp [Value.get, hga]
        have e2 : (Value.map mb).get k = vb := by simp [Value.get, hgb]
        have e3 : ((Value.map ma).merge (.map mb)).get k = va.merge vb := by
          rw [merge_map_map]
          simp [Value.get, merge_get_cases _ _ (uniqueKeys_map.1 hu).1, hga, hgb,
            isMap_of_view_keys ha, isMap_of_view_keys hb]
        rw [List.foldl_cons, List.foldl_cons, List.foldl_cons, e1, e2, e3]
        exact ih va vb (uniqueKeys_get hu hgb) ha hb

end Verif
