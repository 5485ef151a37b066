import Verif.Spec.Export
import Verif.Props.Pinned
import Verif.Props.Layers
import Mathlib.Data.Set.Finite.Lattice
/-!
# C121: a built value is made of the layers and can be exported
-/
namespace Verif.Props
open Spec

/-- **C121.** What is at a path of the built value is at the same path of one of the layers that could be read. -/
theorem C121_places (b : Build) (fm : Formats) (calls : List RegCall) (w : World) (skip : Bool) (v : Value)
    (h : (register b fm calls).buildValue w skip = .ok v) (hp : ∀ a ∈ firsts (offers b fm calls), Proper a.2) (p : Path) (hne : p ≠ [])
    (a : Head) (ha : view v p = some a) :
    ∃ e ∈ firsts (offers b fm calls), ∃ x, e.2.readValue w = .ok x ∧ x.isMap = true ∧ view x p = some a := by
  rcases C07_cases w (firsts (offers b fm calls)) p with hno | ⟨before, e, after, x, hls, hx, hm, hs, hl⟩
  · have := C07_nobody_speaks b fm calls w skip v h hp p hno
    rw [if_neg hne, ha] at this; cases this
  · refine ⟨e, by rw [hls]; simp, x, hx, hm, ?_⟩
    rw [← C07_last_speaker b fm calls w skip v h hp p before e after x hls hx hm hs hl, ha]

/-- **C121.** So the built value is nested no deeper than the deepest layer. -/
theorem C121_depth (b : Build) (fm : Formats) (calls : List RegCall) (w : World) (skip : Bool) (v : Value)
    (h : (register b fm calls).buildValue w skip = .ok v) (hp : ∀ a ∈ firsts (offers b fm calls), Proper a.2) (n : Nat) (hn : 0 < n)
    (hd : ∀ e ∈ firsts (offers b fm calls), ∀ x, e.2.readValue w = .ok x → x.isMap = true → DepthBelow x n) : DepthBelow v n := by
  intro p hp'
  by_cases hne : p = []
  · subst hne; exact hn
  · obtain ⟨a, ha⟩ := Option.ne_none_iff_exists'.1 hp'
    obtain ⟨e, he, x, hx, hm, hv⟩ := C121_places b fm calls w skip v h hp p hne a ha
    exact hd e he x hx hm p (by rw [hv]; simp)

/-- **C121.** … and has no more places than all layers together (and the place of the value itself). -/
theorem C121_size (b : Build) (fm : Formats) (calls : List RegCall) (w : World) (skip : Bool) (v : Value)
    (h : (register b fm calls).buildValue w skip = .ok v) (hp : ∀ a ∈ firsts (offers b fm calls), Proper a.2) :
    (places v).encard ≤ 1 + (((firsts (offers b fm calls)).filterMap fun e => (e.2.readValue w).toOption).map fun x => (places x).encard).sum := by
  have key : ∀ (vs : List Value) (S : Set Path), (∀ p ∈ S, ∃ x ∈ vs, p ∈ places x) → S.encard ≤ (vs.map fun x => (places x).encard).sum := by
    intro vs
    induction vs with
    | nil => intro S hS; rw [show S = ∅ from Set.eq_empty_iff_forall_notMem.2 fun p hp => by obtain ⟨x, hx, -⟩ := hS p hp; cases hx]; simp
    | cons y vs ih =>
      intro S hS
      have h1 : S ⊆ places y ∪ (S \ places y) := by intro p hp; by_cases h : p ∈ places y <;> simp [h, hp]
      refine (Set.encard_le_encard h1).trans ((Set.encard_union_le _ _).trans ?_)
      rw [List.map_cons, List.sum_cons]
      refine add_le_add le_rfl (ih _ fun p hp => ?_)
      obtain ⟨x, hx, hpx⟩ := hS p hp.1
      rcases List.mem_cons.1 hx with rfl | hx
      · exact absurd hpx hp.2
      · exact ⟨x, hx, hpx⟩
  have h1 : places v ⊆ {[]} ∪ (places v \ {[]}) := by intro p hp; by_cases h : p = [] <;> simp [h, hp]
  refine (Set.encard_le_encard h1).trans ((Set.encard_union_le _ _).trans ?_)
  refine add_le_add (by simp) (key _ _ ?_)
  rintro p ⟨hp1, hne⟩
  obtain ⟨a, ha⟩ := Option.ne_none_iff_exists'.1 hp1
  obtain ⟨e, he, x, hx, -, hv⟩ := C121_places b fm calls w skip v h hp p (by simpa using hne) a ha
  exact ⟨x, List.mem_filterMap.2 ⟨e, he, by rw [hx]; rfl⟩, by show view x p ≠ none; rw [hv]; simp⟩

/-- Every value has finitely many places, so the bound says something. -/
theorem C121_finite (v : Value) : (places v).Finite := by
  have node : ∀ (v : Value) (S : Set Step), S.Finite → (∀ s x, child v s = some x → s ∈ S ∧ (places x).Finite) → (places v).Finite := by
    intro v S hS h
    refine Set.Finite.subset (Set.Finite.union (Set.finite_singleton []) (hS.biUnion fun s _ =>
      (show (((fun p => s :: p) '' (places ((child v s).getD .none))) ∩ {p | child v s ≠ none}).Finite from ?_))) ?_
    · cases hc : child v s with
      | none => simp
      | some x => exact ((h s x hc).2.image _).inter_of_left _
    · intro p hp
      cases p with
      | nil => simp
      | cons s p =>
        have hp : view v (s :: p) ≠ none := hp
        rw [view_cons] at hp
        cases hc : child v s with
        | none => rw [hc] at hp; exact absurd rfl hp
        | some x =>
          rw [hc, Option.bind_some] at hp
          refine Or.inr (Set.mem_biUnion (h s x hc).1 ⟨⟨p, ?_, rfl⟩, ?_⟩)
          · rw [hc]; exact hp
          · show child v s ≠ none; rw [hc]; simp
  induction v using Value.ind with
  | array xs ih =>
    refine node _ (Step.idx '' {i | i < xs.length}) (Set.Finite.image _ (Set.finite_lt_nat _)) fun s x hs => ?_
    cases s with
    | key k => cases hs
    | idx i =>
      have hs : xs[i]? = some x := hs
      exact ⟨⟨i, lt_of_get hs, rfl⟩, ih x (List.mem_of_getElem? hs)⟩
  | map m ih =>
    refine node _ (Step.key '' {k | k ∈ m.map Prod.fst}) (Set.Finite.image _ (List.finite_toSet _)) fun s x hs => ?_
    cases s with
    | idx i => cases hs
    | key k =>
      rw [child_key_map] at hs
      exact ⟨⟨k, List.mem_map.2 ⟨_, hmGet_mem hs, rfl⟩, rfl⟩, ih _ (hmGet_mem hs)⟩
  | _ => exact node _ ∅ Set.finite_empty fun s x hs => by cases s <;> cases hs

/-! ## What TOML can hold -/

theorem holds_merge (b : Value) : ∀ a : Value, UniqueKeys a → UniqueKeys b → TomlHolds a → TomlHolds b → TomlHolds (a.merge b) := by
  induction b using Value.ind with
  | map r ih =>
    intro a hua hub ha hb
    cases a with
    | map l =>
      have hum := uniqueKeys_merge hua hub
      rw [merge_map_map] at hum ⊢
      cases ha with
      | map ha => cases hb with
      | map hb =>
        refine .map fun e he hne => ?_
        have hg := hmGet_of_mem (uniqueKeys_map.1 hum).1 he
        rw [hmGet_mergeEntries r l (uniqueKeys_map.1 hub).1] at hg
        cases hr : hmGet r e.1 with
        | none => rw [hr] at hg; exact ha _ (hmGet_mem hg) hne
        | some x =>
          rw [hr] at hg
          cases hl : hmGet l e.1 with
          | none => rw [hl] at hg; cases hg; exact hb _ (hmGet_mem hr) hne
          | some y =>
            rw [hl] at hg
            simp only [Option.some.injEq] at hg
            by_cases hc : (y.isMap && x.isMap) = true
            · rw [if_pos hc] at hg
              rw [← hg]
              rw [Bool.and_eq_true] at hc
              have hy0 : y ≠ .none := by rintro rfl; cases hc.1
              have hx0 : x ≠ .none := by rintro rfl; cases hc.2
              exact ih _ (hmGet_mem hr) y ((uniqueKeys_map.1 hua).2 _ (hmGet_mem hl)) ((uniqueKeys_map.1 hub).2 _ (hmGet_mem hr))
                (ha _ (hmGet_mem hl) hy0) (hb _ (hmGet_mem hr) hx0)
            · rw [if_neg hc] at hg
              rw [← hg] at hne ⊢
              exact hb _ (hmGet_mem hr) hne
    | _ => simpa [Value.merge] using ha
  | _ => intro a _ _ ha _; cases a <;> simpa [Value.merge] using ha

/-- **C121.** If TOML can hold every layer, it can hold the built value. -/
theorem C121_holds (b : Build) (fm : Formats) (calls : List RegCall) (w : World) (skip : Bool) (v : Value)
    (h : (register b fm calls).buildValue w skip = .ok v) (hp : ∀ a ∈ firsts (offers b fm calls), Proper a.2)
    (hh : ∀ e ∈ firsts (offers b fm calls), ∀ x, e.2.readValue w = .ok x → x.isMap = true → TomlHolds x) : TomlHolds v := by
  rw [build_ok h]
  have key : ∀ (vs : List Value) (a : Value), UniqueKeys a → TomlHolds a → a.isMap = true → (∀ x ∈ vs, UniqueKeys x ∧ (x.isMap = true → TomlHolds x)) →
      TomlHolds (vs.foldl Value.merge a) := by
    intro vs
    induction vs with
    | nil => intro a _ ha _ _; exact ha
    | cons x vs ih =>
      intro a hu ha hm hx
      have h1 := hx x List.mem_cons_self
      refine ih _ (uniqueKeys_merge hu h1.1) ?_ (by rw [isMap_merge]; exact hm) fun y hy => hx y (List.mem_cons_of_mem _ hy)
      cases hxm : x.isMap with
      | true => exact holds_merge x a hu h1.1 ha (h1.2 hxm)
      | false => cases a <;> cases x <;> first | (cases hxm; done) | simpa [Value.merge] using ha
  refine key _ _ (by simp [Value.newMap, UniqueKeys, UniqueKeysMap]) (.map (by simp)) rfl fun x hx => ?_
  obtain ⟨e, he, hr⟩ := List.mem_filterMap.1 hx
  cases hr' : e.2.readValue w with
  | error y => rw [hr'] at hr; cases hr
  | ok y => rw [hr'] at hr; cases hr; exact ⟨hp e he w x hr', hh e he x hr'⟩

/-- **C121.** An environment layer is a flat map of texts. -/
theorem C121_environment (w : World) (pre : String) (x : Value) (hx : (Layer.newEnvironment pre).readValue w = .ok x) :
    TomlHolds x ∧ DepthBelow x 2 := by
  obtain ⟨m, rfl, hm⟩ : ∃ m : Entries, x = .map m ∧ ∀ e ∈ m, ∃ s, e.2 = .string s := by
    simp only [Layer.newEnvironment, Layer.readValue, Layer.readEnv] at hx
    split at hx
    · cases hx
    · refine ⟨_, (Except.ok.inj hx).symm, ?_⟩
      have key : ∀ (env : List (OsStr × OsStr)) (m : Entries), (∀ e ∈ m, ∃ s, e.2 = .string s) →
          ∀ e ∈ env.foldl (Layer.envStep (trimStr pre)) m, ∃ s, e.2 = .string s := by
        intro env
        induction env with
        | nil => intro m hm; exact hm
        | cons a env ih =>
          intro m hm
          refine ih _ ?_
          intro e he
          unfold Layer.envStep at he
          split at he
          · exact hm e he
          · simp only at he
            split at he
            · split at he
              · exact hm e he
              · rename_i value _
                rcases mem_insert he with rfl | he
                · exact ⟨value, rfl⟩
                · exact hm e he
            · exact hm e he
      exact key w.env [] (by simp)
  refine ⟨.map fun e he _ => ?_, depth_node (k := 1) fun s y hy => ?_⟩
  · obtain ⟨s, hs⟩ := hm e he; rw [hs]; exact .string s
  · cases s with
    | idx i => cases hy
    | key k =>
      rw [child_key_map] at hy
      obtain ⟨s, hs⟩ := hm _ (hmGet_mem hy)
      simp only at hs
      subst hs
      exact depth_leaf fun s => by cases s <;> rfl

/-! ## Exporting -/

theorem view_nil_maps {a b : Value} (ha : a.isMap = true) (hb : b.isMap = true) : view a [] = view b [] := by
  cases a <;> first | (cases ha; done) | skip
  cases b <;> first | (cases hb; done) | rfl

theorem isMap_prune {v : Value} (h : v.isMap = true) : (prune v).isMap = true := by
  cases v <;> first | (cases h; done) | rfl

/-- **C121.** The value built from layers that TOML can hold (and that are nested less deep than its parser allows) can be written to a TOML file wherever a
file can be written, and the file, read on its own, holds what the value holds, up to the kind of integers, except the map entries that are `None`. -/
theorem C121_exported {limit : Nat} {cd : Codec} (htl : TomlLike limit cd) (hl : 0 < limit) (b : Build) (fm : Formats) (calls : List RegCall) (w : World)
    (skip : Bool) (v : Value) (h : (register b fm calls).buildValue w skip = .ok v) (hp : ∀ a ∈ firsts (offers b fm calls), Proper a.2)
    (hh : ∀ e ∈ firsts (offers b fm calls), ∀ x, e.2.readValue w = .ok x → x.isMap = true → TomlHolds x ∧ DepthBelow x limit) (path : OsStr) :
    (∀ w1, w.openTrunc path = .ok w1 → w.room (w.locate path) = none → ∃ w', (Layer.newFile (textHandler cd) path).writeValue w v = (.ok (), w')) ∧
    ∀ w', (Layer.newFile (textHandler cd) path).writeValue w v = (.ok (), w') → (∀ bs code wr, w.disk (w.locate path) ≠ .file bs (some code) wr) →
      ∃ r, (Layer.newFile (textHandler cd) path).readValue w' = .ok r ∧ AlikeOmitting v r := by
  obtain ⟨hvm, hvu⟩ := C08_map b fm calls w skip v h
  have hd := C121_depth b fm calls w skip v h hp limit hl fun e he x hx hm => (hh e he x hx hm).2
  have ht := C121_holds b fm calls w skip v h hp fun e he x hx hm => (hh e he x hx hm).1
  refine ⟨fun w1 ho hr => (C84_write htl w path v).2 ⟨hvm, ht⟩ w1 ho hr, fun w' hok hread => ?_⟩
  obtain ⟨r, h1, h2, -⟩ := C84_read_back htl w w' path v (hvu hp) hd hok hread
  exact ⟨r, h1, h2⟩

/-- **C121.** Settings that can be read from a configuration can be read from its export: in every configuration, anywhere and at any time, that has the exported file
as a layer (as long as the file reads the same) and whose other layers say nothing about these settings, they are the same. -/
theorem C121_settings {limit : Nat} {cd : Codec} (htl : TomlLike limit cd) (hl : 0 < limit) (b : Build) (fm : Formats) (calls : List RegCall) (w : World)
    (skip : Bool) (v : Value) (h : (register b fm calls).buildValue w skip = .ok v) (hp : ∀ a ∈ firsts (offers b fm calls), Proper a.2)
    (hh : ∀ e ∈ firsts (offers b fm calls), ∀ x, e.2.readValue w = .ok x → x.isMap = true → DepthBelow x limit) (path : OsStr) (w' : World)
    (hok : (Layer.newFile (textHandler cd) path).writeValue w v = (.ok (), w')) (hread : ∀ bs code wr, w.disk (w.locate path) ≠ .file bs (some code) wr)
    (structs : Nat → List (String × Ty)) (hs : ∀ n, WellFormed (.struct (structs n))) (hsc : ∀ n, Concrete (.struct (structs n)))
    (hso : ∀ n, OmitsNone (.struct (structs n))) (T : Ty) (hT : WellFormed T) (hTc : Concrete T) (hTo : OmitsNone T)
    (k : Nat) (d : Data) (hd : deAt structs k T v = .ok d) (hc : ¬ KeyClash structs T v)
    (b2 : Build) (fm2 : Formats) (calls2 : List RegCall) (before after : List (String × Layer)) (name : String) (w2 : World) (skip2 : Bool) (v2 : Value)
    (hls : firsts (offers b2 fm2 calls2) = before ++ (name, .newFile (textHandler cd) path) :: after)
    (hp2 : ∀ a ∈ firsts (offers b2 fm2 calls2), Proper a.2)
    (hsame : (Layer.newFile (textHandler cd) path).readValue w2 = (Layer.newFile (textHandler cd) path).readValue w')
    (hno : ∀ a ∈ before ++ after, ∀ p, Looks structs T p → p ≠ [] → ¬ Speaks w2 a.2 p)
    (h2 : (register b2 fm2 calls2).buildValue w2 skip2 = .ok v2) :
    ∃ d', deAt structs k T v2 = .ok d' ∧ DSame d d' := by
  obtain ⟨hvm, hvu⟩ := C08_map b fm calls w skip v h
  have hdp := C121_depth b fm calls w skip v h hp limit hl hh
  have hu := hvu hp
  obtain ⟨-, s, r, hr, hom, -, hal, hur⟩ := toml_stored htl hu hdp hok hread
  have hpu := uniqueKeys_prune v hu
  have hnc : ¬ KeyClash structs T (prune v) := fun hh => hc (clash_prune hh _ v hu rfl)
  have hpr : deAt structs k T (prune v) = .ok d := deAt_prune hso hs hTo hT k _ v d hu hd
  have hpa : Alike (prune v) r := by
    have hsm := same_of_omitting (omitting_prune' hu) hom
    intro p; rw [hsm p]; exact hal p
  obtain ⟨k1, k2⟩ := C66_deserialize structs hs hsc T hT hTc k (prune v) r hpu hur hpa hnc
  obtain ⟨d1, hd1⟩ := k1.1 ⟨d, hpr⟩
  have hrm : r.isMap = true := by
    rw [← alike_isMap hpa]; exact isMap_prune hvm
  have hncr : ¬ KeyClash structs T r := fun hh => hnc (clash_alike hh _ (Alike.symm hpa))
  obtain ⟨hm2, hu2⟩ := C08_map b2 fm2 calls2 w2 skip2 v2 h2
  have hr2 : (Layer.newFile (textHandler cd) path).readValue w2 = .ok r := by rw [hsame]; exact hr
  have key : ∀ p, Looks structs T p → view r p = view v2 p := by
    intro p hp'
    by_cases hp0 : p = []
    · subst hp0; exact view_nil_maps hrm hm2
    · by_cases hsil : Silent r p
      · rw [C07_nobody_speaks b2 fm2 calls2 w2 skip2 v2 h2 hp2 p ?_, if_neg hp0]
        · obtain ⟨q, k', t, rfl, -, h3⟩ := hsil
          have := view_none_append r _ t h3
          rwa [List.append_assoc] at this
        · intro e he
          rw [hls, List.mem_append, List.mem_cons] at he
          rcases he with he | rfl | he
          · exact hno e (List.mem_append_left _ he) p hp' hp0
          · rintro ⟨y, hy, -, hns⟩
            rw [hr2] at hy; cases hy
            exact hns hsil
          · exact hno e (List.mem_append_right _ he) p hp' hp0
      · exact (C07_last_speaker b2 fm2 calls2 w2 skip2 v2 h2 hp2 p before _ after r hls hr2 hrm hsil fun a ha =>
          hno a (List.mem_append_right _ ha) p hp' hp0).symm
  obtain ⟨h3, h4⟩ := C119_footprint structs hs T hT k r v2 hur (hu2 hp2) key hncr
  obtain ⟨d', hd'⟩ := h3.1 ⟨d1, hd1⟩
  exact ⟨d', hd', fun p => (k2 d d1 hpr hd1 p).trans (h4 d1 d' hd1 hd' p)⟩

/-! ## Concrete cases -/

/-- Two layers, of which the second overrides the proxy. -/
def exExCalls : List RegCall := [.memory "default" (.map [("proxy", .string "p"), ("a", .string "2")]), .memory "over" (.map [("proxy", .string "q")])]
/-- Another machine: a layer that has only a color, and the exported file. -/
def exExCalls2 : List RegCall := [.memory "theme" (.map [("color", .string "red")]), .file "file" (os "/c.toml")]
def exExBuilt : Value := .map [("proxy", .string "q"), ("a", .string "2")]

theorem exEx_proper {b : Build} {fm : Formats} {calls : List RegCall} (h1 : ∀ c ∈ calls, c.BuiltIn) (h2 : ∀ c ∈ calls, ∀ n x, c = .memory n x → UniqueKeys x) :
    ∀ a ∈ firsts (offers b fm calls), Proper a.2 := by
  intro a ha
  obtain ⟨c, hc, ho⟩ := List.mem_filterMap.1 (mem_firsts ha)
  exact C08_builtin_proper b fm c a (h1 c hc) (h2 c hc) ho

/-- The configuration is exported; the other machine reads the settings from the file. -/
example : ∃ (w w' : World) (v2 : Value) (d' : Data), (register exB1 ⟨exToml, exToml⟩ exExCalls).buildValue w false = .ok exExBuilt ∧
    exTSFile.writeValue w exExBuilt = (.ok (), w') ∧ (register exB1 ⟨exToml, exToml⟩ exExCalls2).buildValue w' false = .ok v2 ∧
    deAt (fun _ => []) 0 (.struct exWhole) v2 = .ok d' ∧ DSame exPinned d' := by
  obtain ⟨w1, -, hw1, -⟩ := exEd_start
  obtain ⟨hh, hd⟩ := exEd_flat [("proxy", .string "q"), ("a", .string "2")] (by simp)
  obtain ⟨w2, hok, hr2, -⟩ := exTS_step hw1 (v := exExBuilt) (r := exExBuilt) rfl hh (by
    rw [show prune exExBuilt = exExBuilt from rfl]
    simp only [exExBuilt, docOf, List.attach, List.attachWith, List.pmap, List.map]; rfl)
  have hread : ∀ bs code wr, w1.disk (w1.locate (os "/c.toml")) ≠ .file bs (some code) wr := by
    intro bs code wr h
    obtain ⟨-, h2, bs', h3⟩ := hw1
    rw [show w1.locate (os "/c.toml") = 3 by rw [h2]; rfl] at h
    rcases h3 with h3 | h3 <;> rw [h3] at h <;> cases h
  have hall : ∀ f ∈ exWhole, f.2 = .option .string ∨ f.2 = .string := by simp [exWhole]
  have hS : WellFormed (.struct exWhole) := .struct (by decide) fun f hf => by
    rcases hall f hf with h | h <;> rw [h]
    · exact .option .string
    · exact .string
  have hC : Concrete (.struct exWhole) := .struct fun f hf => by
    rcases hall f hf with h | h <;> rw [h]
    · exact .option (.leaf (by simp))
    · exact .leaf (by simp)
  have hO : OmitsNone (.struct exWhole) := .struct (fun f hf => by
    rcases hall f hf with h | h <;> rw [h]
    · exact Or.inr ⟨_, rfl⟩
    · exact Or.inl rfl) fun f hf => by
    rcases hall f hf with h | h <;> rw [h]
    · exact .option (.leaf (by simp))
    · exact .leaf (by simp)
  have hK : ∀ v, ¬ KeyClash (fun _ => []) (.struct exWhole) v := by
    intro v h
    cases h with
    | struct hm _ h =>
      rcases hall _ hm with e | e <;> simp only at e <;> subst e
      · cases h with | option h => cases h
      · cases h
  have hb : (register exB1 ⟨exToml, exToml⟩ exExCalls).buildValue w1 false = .ok exExBuilt := by
    rw [buildValue_is (is_register _ _ _)]; rfl
  have hb2 : (register exB1 ⟨exToml, exToml⟩ exExCalls2).buildValue w2 false =
      .ok ((Value.newMap.merge (.map [("color", .string "red")])).merge exExBuilt) := by
    rw [buildValue_is (is_register _ _ _)]
    show buildList w2 false Value.newMap [("theme", .memory (.map [("color", .string "red")])), ("file", exTSFile)] = _
    simp only [buildList, hr2]
    rfl
  have hpr := exEx_proper (b := exB1) (fm := ⟨exToml, exToml⟩) (calls := exExCalls) (by
      intro c hc
      simp only [exExCalls, List.mem_cons, List.not_mem_nil, or_false] at hc
      rcases hc with rfl | rfl <;> trivial) (by
      intro c hc n x e
      simp only [exExCalls, List.mem_cons, List.not_mem_nil, or_false] at hc
      rcases hc with rfl | rfl <;> cases e <;> simp [UniqueKeys, UniqueKeysMap, UniqueKeysEntry])
  have hpr2 := exEx_proper (b := exB1) (fm := ⟨exToml, exToml⟩) (calls := exExCalls2) (by
      intro c hc
      simp only [exExCalls2, List.mem_cons, List.not_mem_nil, or_false] at hc
      rcases hc with rfl | rfl <;> trivial) (by
      intro c hc n x e
      simp only [exExCalls2, List.mem_cons, List.not_mem_nil, or_false] at hc
      rcases hc with rfl | rfl <;> cases e <;> simp [UniqueKeys, UniqueKeysMap, UniqueKeysEntry])
  obtain ⟨d', h1, h2⟩ := C121_settings (exToml_like 80) (by decide) exB1 ⟨exToml, exToml⟩ exExCalls w1 false exExBuilt hb hpr (by
      intro e he x hx _
      have he : e ∈ [("default", Layer.memory (.map [("proxy", .string "p"), ("a", .string "2")])), ("over", Layer.memory (.map [("proxy", .string "q")]))] := he
      simp only [List.mem_cons, List.not_mem_nil, or_false] at he
      rcases he with rfl | rfl <;> cases hx <;> exact (exEd_flat _ (by simp)).2)
    (os "/c.toml") w2 hok hread (fun _ => []) (fun _ => .struct (by simp) (by simp)) (fun _ => .struct (by simp)) (fun _ => .struct (by simp) (by simp))
    (.struct exWhole) hS hC hO 0 exPinned (by rfl) (hK _) exB1 ⟨exToml, exToml⟩ exExCalls2 [("theme", .memory (.map [("color", .string "red")]))] [] "file"
    w2 false _ rfl hpr2 rfl (by
      intro a ha p hp hp0
      simp only [List.append_nil, List.mem_singleton] at ha
      subst ha
      rintro ⟨x, hx, -, hs⟩
      cases hx
      cases hp with
      | here => exact hp0 rfl
      | @struct _ name t p hm _ =>
        refine hs ⟨[], name, p, rfl, fun q hq => by rw [List.prefix_nil] at hq; subst hq; rfl, ?_⟩
        simp only [exWhole, List.mem_cons, Prod.mk.injEq, List.not_mem_nil, or_false] at hm
        rcases hm with ⟨rfl, -⟩ | ⟨rfl, -⟩ <;> decide) hb2
  exact ⟨w1, w2, _, d', hb, hok, hb2, h1, h2⟩

/-- In that configuration every layer has 3 or 2 places; the built value has at most 1 + 3 + 2. -/
example : (places exExBuilt).encard ≤ 1 + ((places (.map [("proxy", .string "p"), ("a", .string "2")])).encard + ((places (.map [("proxy", .string "q")])).encard + 0)) :=
  C121_size exB1 exFormats exExCalls exDisk false exExBuilt (by rfl) (exEx_proper (by
      intro c hc
      simp only [exExCalls, List.mem_cons, List.not_mem_nil, or_false] at hc
      rcases hc with rfl | rfl <;> trivial) (by
      intro c hc n x e
      simp only [exExCalls, List.mem_cons, List.not_mem_nil, or_false] at hc
      rcases hc with rfl | rfl <;> cases e <;> simp [UniqueKeys, UniqueKeysMap, UniqueKeysEntry]))

end Verif.Props
