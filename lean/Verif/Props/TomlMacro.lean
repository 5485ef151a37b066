import Verif.Props.Toml
/-!
# C85: defaults with `None` through `create_config!` and TOML
-/
namespace Verif.Props
open Verif Verif.Spec

/-- Something below a key step: there is a map. -/
theorem map_above_key (v : Value) (q : Path) (k : String) (r : Path) (h : view v (q ++ .key k :: r) ≠ none) : view v q = some .map := by
  induction q generalizing v with
  | nil =>
    rw [List.nil_append, view_cons] at h
    cases v <;> first | rfl | exact absurd rfl h
  | cons s q ih =>
    rw [List.cons_append, view_cons] at h
    rw [view_cons]
    cases hc : child v s with
    | none => rw [hc] at h; exact absurd rfl h
    | some x => rw [hc] at h; exact ih x h

theorem list_above_index (v : Value) (q : Path) (i : Nat) (r : Path) (h : view v (q ++ .idx i :: r) ≠ none) : ∃ n, view v q = some (.array n) := by
  induction q generalizing v with
  | nil =>
    rw [List.nil_append, view_cons] at h
    cases v <;> first | exact ⟨_, rfl⟩ | exact absurd rfl h
  | cons s q ih =>
    rw [List.cons_append, view_cons] at h
    rw [view_cons]
    cases hc : child v s with
    | none => rw [hc] at h; exact absurd rfl h
    | some x => rw [hc] at h; exact ih x h

theorem inner_not_none (v : Value) (q : Path) (s : Step) (r : Path) (h : view v (q ++ s :: r) ≠ none) :
    view v q ≠ none ∧ view v q ≠ some .none := by
  cases s with
  | key k => rw [map_above_key v q k r h]; simp
  | idx i => obtain ⟨n, e⟩ := list_above_index v q i r h; rw [e]; simp

/-- Up to the kind of integers, and up to `None` entries, which may be missing. -/
def AlikeMaybe (v r : Value) : Prop := ∀ p,
  (NullEntry v p → view r p = some .none ∨ view r p = none) ∧
  (¬ NullEntry v p → (view v p = none ∧ view r p = none) ∨ ∃ h h', view v p = some h ∧ view r p = some h' ∧ HeadAlike h h')

theorem headAlike_none {h : Head} (e : HeadAlike .none h) : h = .none := by
  rcases e with rfl | ⟨n, e, -⟩
  · rfl
  · cases e

theorem alikeMaybe_of_alike {v r : Value} (h : Alike v r) : AlikeMaybe v r := by
  intro p
  refine ⟨fun hn => ?_, fun _ => h p⟩
  rcases h p with ⟨h1, -⟩ | ⟨a, b, h1, h2, h3⟩
  · rw [hn.2] at h1; cases h1
  · rw [hn.2] at h1; cases h1
    rw [h2, headAlike_none h3]; exact Or.inl rfl

theorem alikeMaybe_of_omitting {v r : Value} (h : AlikeOmitting v r) : AlikeMaybe v r := fun p =>
  ⟨fun hn => Or.inr ((h p).1 hn), (h p).2⟩

theorem alikeMaybe_of_below {v r : Value} (h : AlikeBelowLists v r) : AlikeMaybe v r := fun p =>
  ⟨fun hn => ((h p).1 hn).elim Or.inl (fun h => Or.inr h.1), (h p).2⟩

theorem below_of_alike {v r : Value} (h : Alike v r) : AlikeBelowLists v r := by
  intro p
  refine ⟨fun hn => ?_, fun _ => h p⟩
  rcases h p with ⟨h1, -⟩ | ⟨a, b, h1, h2, h3⟩
  · rw [hn.2] at h1; cases h1
  · rw [hn.2] at h1; cases h1
    rw [h2, headAlike_none h3]; exact Or.inl rfl

theorem alikeMaybe_map {v r : Value} (h : AlikeMaybe v r) {p : Path} (hp : view v p = some .map) : view r p = some .map := by
  have hn : ¬ NullEntry v p := by rintro ⟨-, hn⟩; rw [hp] at hn; cases hn
  rcases (h p).2 hn with ⟨h1, -⟩ | ⟨a, b, h1, h2, h3⟩
  · rw [hp] at h1; cases h1
  · rw [hp] at h1; cases h1
    rw [h2, (headAlike_map h3).1 rfl]

theorem alikeMaybe_isMap {v r : Value} (h : AlikeMaybe v r) (hv : v.isMap = true) : r.isMap = true := by
  rw [← head_map_iff] at hv ⊢
  have := alikeMaybe_map h (p := []) (by rw [view_nil, hv])
  rw [view_nil, Option.some.injEq] at this
  exact this

/-- A missing `None` entry that is not below a list is a path about which the value is silent. -/
theorem silent_missing {v r : Value} (h : AlikeMaybe v r) {p : Path} (hn : NullEntry v p) (hr : view r p = none)
    (hi : ∀ i, Step.idx i ∉ p) : Silent r p := by
  obtain ⟨⟨q, k, rfl⟩, hv⟩ := hn
  refine ⟨q, k, [], rfl, fun q' hq => ?_, hr⟩
  obtain ⟨t, rfl⟩ := hq
  apply alikeMaybe_map h
  have hcase : ∃ k' t', t ++ [Step.key k] = .key k' :: t' := by
    cases t with
    | nil => exact ⟨k, [], rfl⟩
    | cons s t =>
      cases s with
      | idx i => exact absurd (by simp) (hi i)
      | key k' => exact ⟨k', t ++ [.key k], rfl⟩
  obtain ⟨k', t', e⟩ := hcase
  apply map_above_key v q' k' t'
  rw [← e, ← List.append_assoc, hv]; simp

theorem below_merge {dv v x : Value} (hdm : dv.isMap = true) (hv : AlikeBelowLists dv v) (hx : AlikeMaybe dv x) (hxu : UniqueKeys x) :
    AlikeBelowLists dv (v.merge x) := by
  have hvm := alikeMaybe_isMap (alikeMaybe_of_below hv) hdm
  have hxm := alikeMaybe_isMap hx hdm
  intro p
  by_cases hs : Silent x p
  · rw [(view_merge' hvm hxm hxu p).1 hs]; exact hv p
  · rw [(view_merge' hvm hxm hxu p).2 hs]
    refine ⟨fun hn => ?_, (hx p).2⟩
    rcases (hx p).1 hn with h | h
    · exact Or.inl h
    · refine Or.inr ⟨h, ?_⟩
      by_contra hno
      rw [not_exists] at hno
      exact hs (silent_missing hx hn h hno)

theorem fold_below {dv : Value} (hdm : dv.isMap = true) (vs : List Value) : ∀ v : Value, AlikeBelowLists dv v →
    UniqueKeys v → (∀ x ∈ vs, x = .map [] ∨ (AlikeMaybe dv x ∧ UniqueKeys x)) →
    AlikeBelowLists dv (vs.foldl Value.merge v) ∧ UniqueKeys (vs.foldl Value.merge v) := by
  induction vs with
  | nil => intro v h hu _; exact ⟨h, hu⟩
  | cons x vs ih =>
    intro v h hvu hx
    rw [List.foldl_cons]
    apply ih
    · rcases hx x (by simp) with rfl | ⟨hs, hxu⟩
      · rw [C02_merge_empty]; exact h
      · exact below_merge hdm h hs hxu
    · rcases hx x (by simp) with rfl | ⟨hs, hxu⟩
      · rw [C02_merge_empty]; exact hvu
      · exact uniqueKeys_merge hvu hxu
    · exact fun y hy => hx y (by simp [hy])

theorem readsAs_maybe {limit : Nat} {b : Build} {fm : Formats} {dv : Value} (hu : UniqueKeys dv) (hf : FormatsFor limit b fm dv) :
    ReadsAs b fm dv (fun y => AlikeMaybe dv y ∧ UniqueKeys y) := by
  intro fmt hfmt text hp
  rcases hfmt with ⟨hb, rfl⟩ | ⟨hb, rfl⟩
  · obtain ⟨ht, hd⟩ := hf.toml hb
    obtain ⟨doc, s, hq, hpres, hom, hus⟩ := ht.parses dv text hu hd hp
    obtain ⟨r, h1, h2, h3⟩ := C66_reads s hus doc hpres
    exact ⟨doc, r, hq, h1, alikeMaybe_of_omitting (alikeOmitting_of hom h2), h3⟩
  · obtain ⟨doc, hq, hpres⟩ := hf.json hb text hp
    obtain ⟨r, h1, h2, h3⟩ := C66_reads dv hu doc hpres
    exact ⟨doc, r, hq, h1, alikeMaybe_of_alike h2, h3⟩

/-- **C85.** Whatever the defaults are — even if TOML cannot hold them, or not all of them — from a clean start every run of `create_config!`
succeeds, leaves the disk as the first run did, and builds a value that has all of the defaults, up to the kind of integers; only entries of
tables inside lists that are `None` may be missing. -/
theorem C85_every_run {limit : Nat} (b : Build) (fm : Formats) (w : World) (args : MacroArgs) (hc : CleanStart b w args) (dv : Value)
    (hdv : valueMapMacro args.default = some dv) (hf : FormatsFor limit b fm dv) (n : Nat) (skip : Bool) :
    ∃ c0 c w', createConfig b fm w args = .ok (c0, w') ∧ nthRun b fm w args n = .ok (c, w') ∧
      ∃ v, c.buildValue w' skip = .ok v ∧ AlikeBelowLists dv v ∧ UniqueKeys v := by
  have hdu : UniqueKeys dv := (C22_macros args.default hc.uniqueKeys [] (by simp)).1 dv hdv
  obtain ⟨c0, c, w', h1, h2, more, h3, h4, hdm, -⟩ := every_run hc hdv (readsAs_maybe hdu hf) n skip
  exact ⟨c0, c, w', h1, h2, _, h3, fold_below hdm more _
    (below_of_alike (Alike.symm (alike_of_same (C02_empty_merge dv hdm hdu))))
    (uniqueKeys_merge (uniqueKeys_map.2 ⟨List.nodup_nil, by simp⟩) hdu) h4⟩

/-- **C85.** In particular, if no table inside a list has a `None` entry, every run builds exactly the defaults, with every `None`, though the
file does not have them. -/
theorem C85_all {limit : Nat} (b : Build) (fm : Formats) (w : World) (args : MacroArgs) (hc : CleanStart b w args) (dv : Value)
    (hdv : valueMapMacro args.default = some dv) (hf : FormatsFor limit b fm dv)
    (hlists : ∀ p, NullEntry dv p → ∀ i, Step.idx i ∉ p) (n : Nat) (skip : Bool) (c : Config) (w' : World)
    (hrun : nthRun b fm w args n = .ok (c, w')) : ∃ v, c.buildValue w' skip = .ok v ∧ Alike dv v := by
  obtain ⟨c0, c1, w1, -, h1, v, hv, ha, -⟩ := C85_every_run b fm w args hc dv hdv hf n skip
  rw [hrun] at h1; cases h1
  refine ⟨v, hv, fun p => ?_⟩
  by_cases hn : NullEntry dv p
  · rcases (ha p).1 hn with h | ⟨-, i, hi⟩
    · exact Or.inr ⟨.none, .none, hn.2, h, Or.inl rfl⟩
    · exact absurd hi (hlists p hn i)
  · exact (ha p).2 hn

theorem typed_maybe {structs : Nat → List (String × Ty)} (hs : ∀ n, Survives (.struct (structs n)))
    (hsc : ∀ n, Concrete (.struct (structs n))) (hso : ∀ n, OmitsNone (.struct (structs n)))
    {T : Ty} (hT : Survives T) (hTc : Concrete T) (hTo : OmitsNone T) {d : Data} (hd : HasType structs T d)
    {x y : Value} (hx : ser d = .ok x) (hy : AlikeMaybe x y) (hu : UniqueKeys y) :
    ∃ k0, ∀ k, k0 ≤ k → ∃ d', deAt structs k T y = .ok d' ∧ DSame d d' := by
  have hxu := uniqueKeys_ser d x hx
  obtain ⟨k0, h⟩ := back hs hd hT x hx x (Same.refl x) hxu
  refine ⟨k0, fun k hk => ?_⟩
  obtain ⟨d1, e1, e2⟩ := h k hk
  let f : Path → Bool := fun p => (view y p).isNone
  have hpu := uniqueKeys_pruneBy x f hxu
  have hnc : ¬ KeyClash structs T (pruneBy f x) := fun hh => noClash_ser hs hd hT x hx (clash_prune hh _ x hxu rfl)
  have hpr : deAt structs k T (pruneBy f x) = .ok d1 :=
    deAt_prune hso (fun n => wellFormed_of_survives (hs n)) hTo (wellFormed_of_survives hT) k _ x d1 hxu e1
  have hpa : Alike (pruneBy f x) y := by
    intro p
    obtain ⟨o1, o2⟩ := omitting_pruneBy p f x hxu
    by_cases hn : NullEntry x p
    · cases hv : view y p with
      | none => exact Or.inl ⟨o1 hn (by show (view y p).isNone = true; rw [hv]; rfl), rfl⟩
      | some g =>
        rw [o2 (fun h => by have h2 : (view y p).isNone = true := h.2; rw [hv] at h2; cases h2), hn.2]
        rcases (hy p).1 hn with h | h
        · rw [hv] at h; exact Or.inr ⟨_, _, rfl, h, Or.inl rfl⟩
        · rw [hv] at h; cases h
    · rw [o2 (fun h => hn h.1)]; exact (hy p).2 hn
  obtain ⟨k1, k2⟩ := C66_deserialize structs (fun n => wellFormed_of_survives (hs n)) hsc T (wellFormed_of_survives hT) hTc k (pruneBy f x) y
    hpu hu hpa hnc
  obtain ⟨d', e3⟩ := k1.1 ⟨d1, hpr⟩
  exact ⟨d', e3, fun p => (e2 p).trans (k2 d1 d' hpr e3 p)⟩

/-- **C85.** A struct of defaults with optional fields, `None` or not, at any depth and inside lists too, is read back from the built value in
every run. -/
theorem C85_typed_struct {limit : Nat} (b : Build) (fm : Formats) (w : World) (args : MacroArgs) (hc : CleanStart b w args) (dv : Value)
    (hdv : valueMapMacro args.default = some dv) (hf : FormatsFor limit b fm dv)
    (structs : Nat → List (String × Ty)) (hs : ∀ n, Survives (.struct (structs n))) (hsc : ∀ n, Concrete (.struct (structs n)))
    (hso : ∀ n, OmitsNone (.struct (structs n)))
    (fs : List (String × Ty)) (hT : Survives (.struct fs)) (hTc : Concrete (.struct fs)) (hTo : OmitsNone (.struct fs))
    (ds : List (String × Data)) (hd : HasType structs (.struct fs) (.struct ds))
    (hargs : List.Forall₂ (fun nd e => e.1 = nd.1 ∧ ser nd.2 = .ok e.2) ds args.default)
    (n : Nat) (skip : Bool) (c : Config) (w' : World) (hrun : nthRun b fm w args n = .ok (c, w')) :
    ∃ v, c.buildValue w' skip = .ok v ∧ ∃ k0, ∀ k, k0 ≤ k → ∃ d', deAt structs k (.struct fs) v = .ok d' ∧ DSame (.struct ds) d' := by
  obtain ⟨c0, c1, w1, -, h1, v, hv, ha, hu⟩ := C85_every_run b fm w args hc dv hdv hf n skip
  rw [hrun] at h1; cases h1
  refine ⟨v, hv, typed_maybe hs hsc hso hT hTc hTo hd ?_ (alikeMaybe_of_below ha) hu⟩
  rw [ser_struct]
  refine ⟨args.default, hargs, ?_⟩
  rw [valueMapMacro_eq, Option.some.injEq] at hdv
  rw [← hdv, Value.newMap, insAll_eq_sets]

/-- **C85.** What may be missing really goes: if a file layer holds what TOML made of `v`, then at a `None` entry of a table inside a list of `v`
the built value has nothing, whatever the layers below say there, unless a later layer speaks about it. -/
theorem C85_lost (b : Build) (fm : Formats) (calls : List RegCall) (w : World) (skip : Bool) (built : Value)
    (h : (register b fm calls).buildValue w skip = .ok built) (hproper : ∀ e ∈ firsts (offers b fm calls), Proper e.2)
    (lower upper : List (String × Layer)) (name : String) (l : Layer)
    (hlayers : firsts (offers b fm calls) = lower ++ (name, l) :: upper) (v r : Value) (hr : l.readValue w = .ok r) (hvm : v.isMap = true)
    (ha : AlikeOmitting v r) (p : Path) (hn : NullEntry v p) (i : Nat) (hi : Step.idx i ∈ p)
    (hquiet : ∀ a ∈ upper, ¬ Speaks w a.2 p) : view built p = none := by
  have hm := alikeMaybe_of_omitting ha
  rw [← (ha p).1 hn]
  refine C07_last_speaker b fm calls w skip built h hproper p lower (name, l) upper r hlayers hr (alikeMaybe_isMap hm hvm) ?_ hquiet
  rintro ⟨q, k, t, rfl, h1, h2⟩
  -- the list lies beyond the missing key, so that key is set in `v` and not `None`
  have hmaps : ∀ q', q' <+: q → view v q' = some .map := by
    intro q' hq
    by_cases hn' : NullEntry v q'
    · have := (ha q').1 hn'; rw [h1 q' hq] at this; cases this
    · rcases (ha q').2 hn' with ⟨-, h'⟩ | ⟨a, b, e1, e2, e3⟩
      · rw [h1 q' hq] at h'; cases h'
      · rw [h1 q' hq] at e2; cases e2
        rw [e1, (headAlike_map e3).2 rfl]
  have hit : Step.idx i ∈ t := by
    rcases List.mem_append.1 hi with hq | hq
    · obtain ⟨q1, q2, rfl⟩ := List.append_of_mem hq
      obtain ⟨m, hm⟩ := list_above_index v q1 i q2 (by rw [hmaps _ (List.prefix_refl _)]; simp)
      rw [hmaps q1 ⟨_, rfl⟩] at hm; cases hm
    · simpa using hq
  obtain ⟨t1, t2, rfl⟩ := List.append_of_mem hit
  have hset : view v (q ++ [.key k]) ≠ none ∧ view v (q ++ [.key k]) ≠ some .none := by
    cases t1 with
    | nil =>
      obtain ⟨m, hm⟩ := list_above_index v (q ++ [.key k]) i t2 (by rw [List.append_assoc]; simp only [List.cons_append, List.nil_append] at *; rw [hn.2]; simp)
      rw [hm]; simp
    | cons s t1 =>
      apply inner_not_none v (q ++ [Step.key k]) s (t1 ++ .idx i :: t2)
      rw [List.append_assoc]; simp only [List.cons_append, List.nil_append] at *; rw [hn.2]; simp
  have hn' : ¬ NullEntry v (q ++ [.key k]) := fun h => hset.2 h.2
  rcases (ha _).2 hn' with ⟨h', -⟩ | ⟨a, b, -, e2, -⟩
  · exact hset.1 h'
  · rw [h2] at e2; cases e2

/-! ### A concrete case: an optional proxy and a list of servers with optional proxies, all `None` -/

def exOptServer : Value := .map [("name", .string "a"), ("proxy", .none)]
def exOptArgs : MacroArgs :=
  { fileName := "f", default := [("proxy", .none), ("servers", .array [exOptServer])], env := none, layers := [⟨"one", [.path "/b"], some true⟩] }
def exOptDefaults : Value := .map [("proxy", .none), ("servers", .array [exOptServer])]

theorem exOpt_dv : valueMapMacro exOptArgs.default = some exOptDefaults := rfl

theorem exOptServer_unique : UniqueKeys exOptServer := by simp [exOptServer, UniqueKeys, UniqueKeysMap, UniqueKeysEntry]

theorem exOpt_clean : CleanStart exB1 exFresh exOptArgs where
  names := by decide
  uniqueKeys := by
    intro e he
    simp [exOptArgs] at he
    rcases he with rfl | rfl
    · trivial
    · exact uniqueKeys_array.2 (by intro x hx; simp at hx; subst hx; exact exOptServer_unique)
  absent := by decide
  room := fun _ => rfl
  places := by decide
  env := by intro pre hpre; cases hpre

theorem exOpt_depth : DepthBelow exOptDefaults 80 := by
  refine depth_mono (k := 4) (depth_node fun s x hx => ?_) (by decide)
  cases s with
  | idx i => cases hx
  | key k =>
    rw [exOptDefaults, child_key_map] at hx
    have := hmGet_mem hx
    simp only [List.mem_cons, List.not_mem_nil, or_false, Prod.mk.injEq] at this
    rcases this with ⟨-, rfl⟩ | ⟨-, rfl⟩
    · exact depth_mono (depth_leaf (by rintro (_ | _) <;> rfl)) (by decide)
    · refine depth_node fun s x hx => ?_
      cases s with
      | key k => cases hx
      | idx i =>
        have := List.mem_of_getElem? (show [exOptServer][i]? = some x from hx)
        simp only [List.mem_singleton] at this
        subst this
        refine depth_node fun s x hx => ?_
        cases s with
        | idx i => cases hx
        | key k =>
          rw [exOptServer, child_key_map] at hx
          have := hmGet_mem hx
          simp only [List.mem_cons, List.not_mem_nil, or_false, Prod.mk.injEq] at this
          rcases this with ⟨-, rfl⟩ | ⟨-, rfl⟩ <;> exact depth_leaf (by rintro (_ | _) <;> rfl)

theorem exOpt_holds : exOptDefaults.isMap = true ∧ TomlHolds exOptDefaults := by
  refine ⟨rfl, .map ?_⟩
  intro e he
  simp only [List.mem_cons, List.not_mem_nil, or_false] at he
  rcases he with rfl | rfl
  · intro h; exact absurd rfl h
  · intro _
    refine .array ?_
    intro x hx
    simp only [List.mem_singleton] at hx; subst hx
    refine .map ?_
    intro e he
    simp only [List.mem_cons, List.not_mem_nil, or_false] at he
    rcases he with rfl | rfl
    · intro _; exact .string _
    · intro h; exact absurd rfl h

theorem exOpt_formats : FormatsFor 80 exB1 ⟨exToml, exToml⟩ exOptDefaults where
  toml _ := ⟨exToml_like 80, exOpt_depth⟩
  json h := by cases h

/-- In the fifth run the struct with its `None`s is read from the built value. -/
example : ∃ c w' v, nthRun exB1 ⟨exToml, exToml⟩ exFresh exOptArgs 5 = .ok (c, w') ∧ c.buildValue w' false = .ok v ∧
    view v [.key "proxy"] = some .none ∧ ∃ k d',
    deAt (fun _ => []) k (.struct [("proxy", .option .string), ("servers", .seq (.struct [("name", .string), ("proxy", .option .string)]))]) v = .ok d' ∧
    DSame (.struct [("proxy", .none), ("servers", .seq [.struct [("name", .str "a"), ("proxy", .none)]])]) d' := by
  obtain ⟨c0, c, w', -, hrun, v0, hv0, ha, -⟩ := C85_every_run exB1 ⟨exToml, exToml⟩ exFresh exOptArgs exOpt_clean _ exOpt_dv exOpt_formats 5 false
  have hin : ∀ f ∈ [("name", Ty.string), ("proxy", Ty.option .string)], f = ("name", .string) ∨ f = ("proxy", .option .string) := by simp
  have hout : ∀ f ∈ [("proxy", Ty.option .string), ("servers", Ty.seq (.struct [("name", .string), ("proxy", .option .string)]))],
      f = ("proxy", .option .string) ∨ f = ("servers", .seq (.struct [("name", .string), ("proxy", .option .string)])) := by simp
  obtain ⟨v, hv, k0, h⟩ := C85_typed_struct exB1 ⟨exToml, exToml⟩ exFresh exOptArgs exOpt_clean _ exOpt_dv exOpt_formats
    (fun _ => []) (fun _ => .struct (by simp) (by simp)) (fun _ => .struct (by simp)) (fun _ => .struct (by simp) (by simp))
    [("proxy", .option .string), ("servers", .seq (.struct [("name", .string), ("proxy", .option .string)]))]
    (.struct (by decide) (by
      intro f hf
      rcases hout f hf with rfl | rfl
      · exact .option .string rfl
      · exact .seq (.struct (by decide) (by
          intro f hf
          rcases hin f hf with rfl | rfl
          · exact .string
          · exact .option .string rfl))))
    (.struct (by
      intro f hf
      rcases hout f hf with rfl | rfl
      · exact .option (.leaf (by simp))
      · exact .seq (.struct (by
          intro f hf
          rcases hin f hf with rfl | rfl
          · exact .leaf (by simp)
          · exact .option (.leaf (by simp))))))
    (.struct (by
      intro f hf
      rcases hout f hf with rfl | rfl
      · exact Or.inr ⟨_, rfl⟩
      · exact Or.inl rfl) (by
      intro f hf
      rcases hout f hf with rfl | rfl
      · exact .option (.leaf (by simp))
      · exact .seq (.struct (by
          intro f hf
          rcases hin f hf with rfl | rfl
          · exact Or.inl rfl
          · exact Or.inr ⟨_, rfl⟩) (by
          intro f hf
          rcases hin f hf with rfl | rfl
          · exact .leaf (by simp)
          · exact .option (.leaf (by simp))))))
    [("proxy", .none), ("servers", .seq [.struct [("name", .str "a"), ("proxy", .none)]])]
    (.struct rfl (by
      rintro (_ | _ | i) f d h1 h2
      · simp at h1 h2; subst h1; subst h2; exact .none _
      · simp at h1 h2; subst h1; subst h2
        refine .seq ?_
        intro d hd
        simp at hd; subst hd
        refine .struct rfl ?_
        rintro (_ | _ | i) f d h1 h2
        · simp at h1 h2; subst h1; subst h2; exact .string _
        · simp at h1 h2; subst h1; subst h2; exact .none _
        · simp at h1
      · simp at h1))
    (.cons ⟨rfl, rfl⟩ (.cons ⟨rfl, rfl⟩ .nil)) 5 false c w' hrun
  obtain rfl : v = v0 := by rw [hv] at hv0; cases hv0; rfl
  have hn : NullEntry exOptDefaults [.key "proxy"] := ⟨⟨[], "proxy", rfl⟩, by decide⟩
  obtain ⟨d', e1, e2⟩ := h k0 (Nat.le_refl _)
  refine ⟨c, w', v, hrun, hv, ?_, k0, d', e1, e2⟩
  rcases (ha _).1 hn with h | ⟨-, i, hi⟩
  · exact h
  · simp at hi

/-- … but the `None` of the server is not in the built value once the file is written: a layered file loses it. -/
example : ∃ w' built, (Layer.file (textHandler exToml) (os "/c.toml")).writeValue exDisk exOptDefaults = (.ok (), w') ∧
    (register exB1 ⟨exToml, exToml⟩ [.memory "default" exOptDefaults, .file "file" (os "/c.toml")]).buildValue w' true = .ok built ∧
    view exOptDefaults [.key "servers", .idx 0, .key "proxy"] = some .none ∧ view built [.key "servers", .idx 0, .key "proxy"] = none := by
  obtain ⟨w', hok⟩ := (C84_write (exToml_like 80) exDisk (os "/c.toml") exOptDefaults).2 exOpt_holds _ rfl rfl
  have hdu : UniqueKeys exOptDefaults := (C22_macros exOptArgs.default exOpt_clean.uniqueKeys [] (by simp)).1 _ exOpt_dv
  obtain ⟨r, hr, ha, hru⟩ := C84_read_back (exToml_like 80) exDisk w' (os "/c.toml") exOptDefaults hdu exOpt_depth hok
    (by intro bs code wr h; cases h)
  obtain ⟨built, hb, -⟩ := C09_skip exB1 ⟨exToml, exToml⟩ [.memory "default" exOptDefaults, .file "file" (os "/c.toml")] w'
  refine ⟨w', built, hok, hb, by decide, ?_⟩
  refine C85_lost exB1 ⟨exToml, exToml⟩ _ w' true built hb ?_ [("default", .memory exOptDefaults)] [] "file" (Layer.newFile (textHandler exToml) (os "/c.toml")) rfl
    exOptDefaults r hr rfl ha _ ⟨⟨[.key "servers", .idx 0], "proxy", rfl⟩, by decide⟩ 0 (by simp) (by simp)
  intro e he
  obtain ⟨c, hc, ho⟩ := List.mem_filterMap.1 (mem_firsts he)
  refine C08_builtin_proper exB1 ⟨exToml, exToml⟩ c e ?_ ?_ ho
  · simp only [List.mem_cons, List.not_mem_nil, or_false] at hc
    rcases hc with rfl | rfl <;> trivial
  · intro n x hx
    simp only [List.mem_cons, List.not_mem_nil, or_false] at hc
    rcases hc with rfl | rfl
    · cases hx; exact hdu
    · cases hx

/-- Defaults with a `None` that is not inside a list: in the seventh run all of them are there. -/
example : ∃ c w' v, nthRun exB1 ⟨exToml, exToml⟩ exFresh
      { fileName := "f", default := [("proxy", .none), ("name", .string "a")], env := none, layers := [⟨"one", [.path "/b"], some true⟩] } 7 = .ok (c, w') ∧
    c.buildValue w' false = .ok v ∧ Alike (.map [("proxy", .none), ("name", .string "a")]) v := by
  let args : MacroArgs := { fileName := "f", default := [("proxy", .none), ("name", .string "a")], env := none, layers := [⟨"one", [.path "/b"], some true⟩] }
  let dv : Value := .map [("proxy", .none), ("name", .string "a")]
  have hdv : valueMapMacro args.default = some dv := rfl
  have hclean : CleanStart exB1 exFresh args := by
    have h := exOpt_clean
    refine ⟨h.names, ?_, h.absent, h.room, h.places, h.env⟩
    intro e he
    simp only [args, List.mem_cons, List.not_mem_nil, or_false] at he
    rcases he with rfl | rfl <;> trivial
  have hdepth : DepthBelow dv 80 := by
    refine depth_mono (k := 2) (depth_node fun s x hx => ?_) (by decide)
    cases s with
    | idx i => cases hx
    | key k =>
      have := hmGet_mem ((child_key_map _ _).symm.trans hx)
      simp only [List.mem_cons, List.not_mem_nil, or_false, Prod.mk.injEq] at this
      rcases this with ⟨-, rfl⟩ | ⟨-, rfl⟩ <;> exact depth_leaf (by rintro (_ | _) <;> rfl)
  have hf : FormatsFor 80 exB1 ⟨exToml, exToml⟩ dv := ⟨fun _ => ⟨exToml_like 80, hdepth⟩, fun h => by cases h⟩
  obtain ⟨c0, c, w', -, hrun, -⟩ := C85_every_run exB1 ⟨exToml, exToml⟩ exFresh args hclean dv hdv hf 7 false
  have hl : ∀ p, NullEntry dv p → ∀ i, Step.idx i ∉ p := by
    rintro p ⟨⟨q, k, rfl⟩, hp⟩ i hi
    rw [List.mem_append] at hi
    rcases hi with hi | hi
    rotate_left
    · simp at hi
    · cases q with
      | nil => cases hi
      | cons s q =>
        cases s with
        | idx j => rw [List.cons_append, view_cons] at hp; cases hp
        | key k' =>
          rw [List.cons_append, view_cons, show child dv (.key k') = hmGet _ k' from child_key_map _ _] at hp
          cases hg : hmGet [("proxy", Value.none), ("name", .string "a")] k' with
          | none => rw [hg] at hp; cases hp
          | some x =>
            rw [hg] at hp
            have := hmGet_mem hg
            simp only [List.mem_cons, List.not_mem_nil, or_false, Prod.mk.injEq] at this
            rcases this with ⟨-, rfl⟩ | ⟨-, rfl⟩ <;>
            · rcases q with _ | ⟨_ | _, q⟩ <;> cases hp
  obtain ⟨v, hv, ha⟩ := C85_all exB1 ⟨exToml, exToml⟩ exFresh args hclean dv hdv hf hl 7 false c w' hrun
  exact ⟨c, w', v, hrun, hv, ha⟩

end Verif.Props
