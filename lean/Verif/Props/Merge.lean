import Verif.Lemmas.Merge2
/-!
# Properties of merging (C01–C06)

`UniqueKeys v` is what Rust's `HashMap` guarantees of every value; it is an invariant of the whole API
(theorem family `C22`).
-/
namespace Verif.Props
open Spec

/-! ## C01 -/

/-- **C01.** After `a.merge(&b)` with both maps: where the overlay is silent the receiver shows through,
everywhere else the overlay is what is seen. -/
theorem C01_merge_overlay (a b : Value) (ha : a.isMap = true) (hb : b.isMap = true) (hu : UniqueKeys b)
    (p : Path) :
    (Silent b p → view (a.merge b) p = view a p) ∧ (¬ Silent b p → view (a.merge b) p = view b p) :=
  view_merge' ha hb hu p

/-- A concrete, non-trivial overlay. -/
def exA : Value := .map [("k", .map [("x", .integer ⟨1, by decide⟩), ("y", .string "old")]), ("z", .boolean true)]
def exB : Value := .map [("k", .map [("y", .array [.none])]), ("w", .none)]

example : exA.isMap = true ∧ exB.isMap = true ∧ UniqueKeys exB := by
  refine ⟨rfl, rfl, ?_⟩; simp [exB, UniqueKeys, UniqueKeysMap, UniqueKeysEntry, UniqueKeysList]
example : Silent exB [.key "k", .key "x"] := ⟨[.key "k"], "x", [], rfl, by
  intro q' h
  rcases List.prefix_cons_iff.1 h with rfl | ⟨t, rfl, h'⟩
  · rfl
  · rw [List.prefix_nil.1 h']; rfl, rfl⟩
example : view (exA.merge exB) [.key "k", .key "x"] = some (.integer ⟨1, by decide⟩) := by decide
example : view (exA.merge exB) [.key "k", .key "y"] = some (.array 1) := by decide
example : view (exA.merge exB) [.key "w"] = some .none := by decide

/-- **C01**, explicit `None`: an entry that is `None` (or any non-map) in the overlay is what is read. -/
theorem C01_nonmap_replaces (a b : Value) (ha : a.isMap = true) (hb : b.isMap = true) (hu : UniqueKeys b)
    (q : List String) (h : Head) (hq : view b (keys q) = some h) (_hne : h ≠ .map) :
    view (a.merge b) (keys q) = some h := by
  rw [(view_merge' ha hb hu (keys q)).2 ?_, hq]
  rintro ⟨q', k, r, e, -, h2⟩
  have : q' ++ [Step.key k] <+: keys q := ⟨r, by rw [e]; simp⟩
  obtain ⟨t, ht⟩ := this
  rw [← ht, view_none_append h2] at hq; cases hq

example : view (exA.merge exB) (keys ["k", "y"]) = some (.array 1) :=
  C01_nonmap_replaces exA exB rfl rfl (by simp [exB, UniqueKeys, UniqueKeysMap, UniqueKeysEntry, UniqueKeysList])
    ["k", "y"] (.array 1) (by decide) (by simp)

/-! ## C02 -/

/-- **C02.** Merging an empty map changes nothing. -/
theorem C02_merge_empty (a : Value) : a.merge (.map []) = a := by
  cases a <;> rfl

/-- **C02.** Merging into an empty map yields the overlay. -/
theorem C02_empty_merge (b : Value) (hb : b.isMap = true) (hu : UniqueKeys b) :
    Same ((Value.map []).merge b) b := by
  intro p
  by_cases hs : Silent b p
  · rw [(view_merge' rfl hb hu p).1 hs, view_of_silent hs]
    obtain ⟨q, k, r, e, h2, h3⟩ := hs
    cases q with
    | nil => rw [e]; rfl
    | cons s q => cases s <;> (rw [e]; rfl)
  · exact (view_merge' rfl hb hu p).2 hs

example : Same ((Value.map []).merge exB) exB :=
  C02_empty_merge exB rfl (by simp [exB, UniqueKeys, UniqueKeysMap, UniqueKeysEntry, UniqueKeysList])

/-- **C02.** Merging a value into itself changes nothing. -/
theorem C02_merge_self (a : Value) (hu : UniqueKeys a) : Same (a.merge a) a := by
  rcases isMap_cases a with ⟨m, rfl⟩ | h
  · intro p
    by_cases hs : Silent (.map m) p
    · exact (view_merge' rfl rfl hu p).1 hs
    · exact (view_merge' rfl rfl hu p).2 hs
  · rw [merge_of_not_map_left h]; exact Same.refl a

example : Same (exA.merge exA) exA :=
  C02_merge_self exA (by simp [exA, UniqueKeys, UniqueKeysMap, UniqueKeysEntry])

/-- **C02.** Merging the same overlay twice is merging it once. -/
theorem C02_merge_twice (a b : Value) (hu : UniqueKeys b) : Same ((a.merge b).merge b) (a.merge b) := by
  rcases isMap_cases b with ⟨m, rfl⟩ | h
  · by_cases ha : a.isMap = true
    · intro p
      have hm : (a.merge (.map m)).isMap = true := by rw [isMap_merge]; exact ha
      by_cases hs : Silent (.map m) p
      · exact (view_merge' hm rfl hu p).1 hs
      · rw [(view_merge' hm rfl hu p).2 hs, (view_merge' ha rfl hu p).2 hs]
    · have ha : a.isMap = false := by simpa using ha
      rw [merge_of_not_map_left ha, merge_of_not_map_left ha]; exact Same.refl a
  · rw [merge_of_not_map_right h]; exact Same.refl _

example : UniqueKeys exA ∧ exA.isMap = true := by
  refine ⟨?_, rfl⟩; simp [exA, UniqueKeys, UniqueKeysMap, UniqueKeysEntry, UniqueKeysList]

/-! ## C03 -/

/-- **C03.** For maps `b`, `c`: the two groupings are indistinguishable for every receiver `a` exactly when `c`
never puts a map where `b` has a non-map. -/
theorem C03_grouping (b c : Value) (hb : b.isMap = true) (hc : c.isMap = true)
    (hub : UniqueKeys b) (huc : UniqueKeys c) :
    (∀ a, UniqueKeys a → Same ((a.merge b).merge c) (a.merge (b.merge c))) ↔ ¬ Clobbers b c := by
  obtain ⟨mb, rfl⟩ := (isMap_cases b).resolve_right (by simp [hb])
  obtain ⟨mc, rfl⟩ := (isMap_cases c).resolve_right (by simp [hc])
  constructor
  · rintro h ⟨q, h1, h2⟩
    obtain ⟨x, ma, hua, hd⟩ := clobbers_distinguish q mb mc hub huc h1 h2
    exact hd (h (.map ma) hua _)
  · intro h a _
    rcases isMap_cases a with ⟨ma, rfl⟩ | ha
    · exact fun p => merge_assoc_view p ma mb mc hub huc h
    · rw [merge_of_not_map_left ha, merge_of_not_map_left ha, merge_of_not_map_left ha]
      exact Same.refl a

/-- **C03.** Grouping is observable in general: the three-layer counterexample. -/
theorem C03_not_associative : ∃ a b c : Value, UniqueKeys a ∧ UniqueKeys b ∧ UniqueKeys c ∧
    a.isMap = true ∧ b.isMap = true ∧ c.isMap = true ∧
    ¬ Same ((a.merge b).merge c) (a.merge (b.merge c)) := by
  refine ⟨.map [("k", .map [("x", .boolean true)])], .map [("k", .boolean false)],
    .map [("k", .map [("y", .boolean true)])], ?_, ?_, ?_, rfl, rfl, rfl, ?_⟩
  · simp [UniqueKeys, UniqueKeysMap, UniqueKeysEntry]
  · simp [UniqueKeys, UniqueKeysMap, UniqueKeysEntry]
  · simp [UniqueKeys, UniqueKeysMap, UniqueKeysEntry]
  · intro h
    exact absurd (h [.key "k", .key "x"]) (by decide)

/-- Non-vacuity of the right-to-left direction: maps that do not clobber each other. -/
theorem exAB_noClobber : ¬ Clobbers exA exB := by
  rintro ⟨q, h1, h, h2, h3⟩
  match q with
  | [] => simp [keys, view, exA, head] at h2; exact h3 h2.symm
  | k :: q =>
    by_cases hk : "k" = k
    · subst hk
      match q with
      | [] => simp [keys, view, exA, child, head] at h2; exact h3 h2.symm
      | k' :: q =>
        by_cases hy : "y" = k'
        · subst hy; cases q <;> simp [keys, view, exB, child, head] at h1
        · simp [keys, view, exB, child, hy] at h1
    · by_cases hw : "w" = k
      · subst hw; cases q <;> simp [keys, view, exB, child, head] at h1
      · simp [keys, view, exB, child, hk, hw] at h1

/-- **C03** at work: the maps of `exA` and `exB` do not clobber each other, so every receiver may group them. -/
example (a : Value) (ha : UniqueKeys a) :
    Same ((a.merge exA).merge exB) (a.merge (exA.merge exB)) :=
  (C03_grouping exA exB rfl rfl (by simp [exA, UniqueKeys, UniqueKeysMap, UniqueKeysEntry])
    (by simp [exB, UniqueKeys, UniqueKeysMap, UniqueKeysEntry, UniqueKeysList])).2 exAB_noClobber a ha

/-! ## C04 -/

/-- **C04.** Merging values that cannot be told apart gives values that cannot be told apart, whatever the
iteration orders of the maps involved. -/
theorem C04_order_independent (a a' b b' : Value) (ha : Same a a') (hb : Same b b')
    (hu : UniqueKeys b) (hu' : UniqueKeys b') : Same (a.merge b) (a'.merge b') :=
  merge_congr ha hb hu hu'

/-- The values do differ as iteration orders: two orders of one overlay. -/
example : ∃ b b' : Value, b ≠ b' ∧ Same b b' ∧ UniqueKeys b ∧ UniqueKeys b' := by
  refine ⟨.map [("a", .none), ("b", .boolean true)], .map [("b", .boolean true), ("a", .none)], ?_, ?_, ?_, ?_⟩
  · simp
  · intro p
    match p with
    | [] => rfl
    | .idx _ :: _ => rfl
    | .key k :: p =>
      by_cases h1 : "a" = k
      · subst h1; rfl
      · by_cases h2 : "b" = k
        · subst h2; rfl
        · simp [view, child, h1, h2]
  · simp [UniqueKeys, UniqueKeysMap, UniqueKeysEntry]
  · simp [UniqueKeys, UniqueKeysMap, UniqueKeysEntry]

/-! ## C05 -/

/-- **C05.** If either side is not a map, the receiver is unchanged. -/
theorem C05_nonmap_noop (a b : Value) (h : a.isMap = false ∨ b.isMap = false) : a.merge b = a := by
  rcases h with h | h
  · exact merge_of_not_map_left h
  · exact merge_of_not_map_right h

example : (Value.string "s").merge exB = .string "s" ∧ exA.merge (.array [exB]) = exA := ⟨rfl, rfl⟩

/-- **C05.** Merging never changes whether the receiver is a map; `clone_merge` returns what `merge` leaves. -/
theorem C05_kind (a b : Value) : (a.merge b).isMap = a.isMap ∧ a.cloneMerge b = a.merge b :=
  ⟨isMap_merge a b, rfl⟩

/-! ## C06 -/

/-- **C06.** At every key path where both sides are maps, the merged value is a map whose keys are the keys of
the one or the other. -/
theorem C06_key_union (a b : Value) (hu : UniqueKeys b) (q : List String)
    (ha : view a (keys q) = some .map) (hb : view b (keys q) = some .map) :
    view (a.merge b) (keys q) = some .map ∧
    ∀ k, view (a.merge b) (keys (q ++ [k])) ≠ none ↔
      (view a (keys (q ++ [k])) ≠ none ∨ view b (keys (q ++ [k])) ≠ none) := by
  have ham := isMap_of_view_keys ha
  have hbm := isMap_of_view_keys hb
  have key : ∀ (r : List String) , (∃ h, view b (keys r) = some h) →
      view (a.merge b) (keys r) = view b (keys r) := by
    rintro r ⟨h, hr⟩
    refine (view_merge' ham hbm hu _).2 ?_
    rintro ⟨q', k, t, e, -, h2⟩
    have : q' ++ [Step.key k] ++ t = keys r := by rw [e]; simp
    rw [← this, view_none_append h2] at hr; cases hr
  refine ⟨by rw [key q ⟨_, hb⟩, hb], fun k => ?_⟩
  cases hv : view b (keys (q ++ [k])) with
  | some h => rw [key _ ⟨h, hv⟩, hv]; simp
  | none =>
    have hs : Silent b (keys (q ++ [k])) := by
      refine ⟨keys q, k, [], by simp [keys], ?_, by simpa [keys] using hv⟩
      intro q' hq'
      obtain ⟨t, ht⟩ := hq'
      obtain ⟨q1, t1, rfl, rfl, -⟩ := List.map_eq_append_iff.1 ht.symm
      exact view_keys_prefix hb
    rw [(view_merge' ham hbm hu _).1 hs]; simp

example : view exA (keys ["k"]) = some .map ∧ view exB (keys ["k"]) = some .map := by decide

/-- **C06.** Reading a chain of keys commutes with merging wherever both sides are maps: the sub-map of the merge
is the merge of the sub-maps. -/
theorem C06_submap (a b : Value) (hu : UniqueKeys b) (q : List String)
    (ha : view a (keys q) = some .map) (hb : view b (keys q) = some .map) :
    q.foldl Value.get (a.merge b) = (q.foldl Value.get a).merge (q.foldl Value.get b) :=
  foldl_get_merge q a b hu ha hb

example : ["k"].foldl Value.get (exA.merge exB) =
    (Value.map [("x", .integer ⟨1, by decide⟩), ("y", .string "old")]).merge (.map [("y", .array [.none])]) :=
  C06_submap exA exB (by simp [exB, UniqueKeys, UniqueKeysMap, UniqueKeysEntry, UniqueKeysList]) ["k"]
    (by decide) (by decide)

/-- **C06.** The length of the merged map is at least each length and at most their sum, at the top level and at
any key path where both sides are maps. -/
theorem C06_len (a b : Value) (hu : UniqueKeys b) (q : List String)
    (ha : view a (keys q) = some .map) (hb : view b (keys q) = some .map) :
    let at_ := fun v : Value => (q.foldl Value.get v).len
    max (at_ a) (at_ b) ≤ at_ (a.merge b) ∧ at_ (a.merge b) ≤ at_ a + at_ b := by
  simp only [foldl_get_merge q a b hu ha hb]
  obtain ⟨ma, ea⟩ := foldl_get_map q a ha
  obtain ⟨mb, eb⟩ := foldl_get_map q b hb
  have hum := uniqueKeys_foldl_get q b hu
  rw [ea, eb, merge_map_map]
  rw [eb] at hum
  have h1 := length_mergeEntries mb ma
  have h2 := length_mergeEntries_right ma mb (uniqueKeys_map.1 hum).1
  simp only [Value.len]
  omega

example : (exA.merge exB).len = 3 := by decide

end Verif.Props
