import Verif.Props.Export
import Verif.Props.DocValues
/-! # Exporting a configuration with a `Value` among its settings (C121) -/
namespace Verif.Props
open Spec

/-- **C121.** So can settings of any type, `Value` fields and maps of options included, if the configuration has no `None` entries: in every configuration, anywhere and at any time, that has the exported file
as a layer (as long as the file reads the same) and whose other layers say nothing about these settings, they are the same up to the kind of the integers in a `Value`. -/
theorem C121_settings_values {limit : Nat} {cd : Codec} (htl : TomlLike limit cd) (hl : 0 < limit) (b : Build) (fm : Formats) (calls : List RegCall) (w : World)
    (skip : Bool) (v : Value) (h : (register b fm calls).buildValue w skip = .ok v) (hp : ∀ a ∈ firsts (offers b fm calls), Proper a.2)
    (hh : ∀ e ∈ firsts (offers b fm calls), ∀ x, e.2.readValue w = .ok x → x.isMap = true → DepthBelow x limit) (path : OsStr) (w' : World)
    (hok : (Layer.newFile (textHandler cd) path).writeValue w v = (.ok (), w')) (hread : ∀ bs code wr, w.disk (w.locate path) ≠ .file bs (some code) wr)
    (structs : Nat → List (String × Ty)) (hs : ∀ n, WellFormed (.struct (structs n))) (T : Ty) (hT : WellFormed T) (hnn : ∀ p, ¬ NullEntry v p)
    (k : Nat) (d : Data) (hd : deAt structs k T v = .ok d) (hc : ¬ KeyClash structs T v)
    (b2 : Build) (fm2 : Formats) (calls2 : List RegCall) (before after : List (String × Layer)) (name : String) (w2 : World) (skip2 : Bool) (v2 : Value)
    (hls : firsts (offers b2 fm2 calls2) = before ++ (name, .newFile (textHandler cd) path) :: after)
    (hp2 : ∀ a ∈ firsts (offers b2 fm2 calls2), Proper a.2)
    (hsame : (Layer.newFile (textHandler cd) path).readValue w2 = (Layer.newFile (textHandler cd) path).readValue w')
    (hno : ∀ a ∈ before ++ after, ∀ p, Looks structs T p → p ≠ [] → ¬ Speaks w2 a.2 p)
    (h2 : (register b2 fm2 calls2).buildValue w2 skip2 = .ok v2) :
    ∃ d', deAt structs k T v2 = .ok d' ∧ DAlike d d' := by
  obtain ⟨hvm, hvu⟩ := C08_map b fm calls w skip v h
  have hdp := C121_depth b fm calls w skip v h hp limit hl hh
  have hu := hvu hp
  obtain ⟨-, s, r, hr, hom, -, hal, hur⟩ := toml_stored htl hu hdp hok hread
  have hpa : Alike v r := by
    intro p; rw [← (hom p).2 (hnn p)]; exact hal p
  obtain ⟨k1, k2⟩ := C66_deserialize_values structs hs T hT k v r hu hur hpa hc
  obtain ⟨d1, hd1⟩ := k1.1 ⟨d, hd⟩
  have hrm : r.isMap = true := by
    rw [← alike_isMap hpa]; exact hvm
  have hncr : ¬ KeyClash structs T r := fun hh => hc (clash_alike hh _ (Alike.symm hpa))
  obtain ⟨hm2, hu2⟩ := C08_map b2 fm2 calls2 w2 skip2 v2 h2
  have hr2 : (Layer.newFile (textHandler cd) path).readValue w2 = .ok r := by rw [hsame]; exact hr
  have key : ∀ p, Looks structs T p → view r p = view v2 p := by
    intro p hp'
    by_cases hp0 : p = []
    · subst hp0; exact view_nil_maps hrm hm2
    · by_cases hsil : Silent r p
      · rw [C07_nobody_speaks b2 fm2 calls2 w2 skip2 v2 h2 hp2 p ?_, if_neg hp0]
        · obtain ⟨q, k', t, rfl, -, h3⟩ := hsil
          have := view_none_append r _ t h3
          rwa [List.append_assoc] at this
        · intro e he
          rw [hls, List.mem_append, List.mem_cons] at he
          rcases he with he | rfl | he
          · exact hno e (List.mem_append_left _ he) p hp' hp0
          · rintro ⟨y, hy, -, hns⟩
            rw [hr2] at hy; cases hy
            exact hns hsil
          · exact hno e (List.mem_append_right _ he) p hp' hp0
      · exact (C07_last_speaker b2 fm2 calls2 w2 skip2 v2 h2 hp2 p before _ after r hls hr2 hrm hsil fun a ha =>
          hno a (List.mem_append_right _ ha) p hp' hp0).symm
  obtain ⟨h3, h4⟩ := C119_footprint structs hs T hT k r v2 hur (hu2 hp2) key hncr
  obtain ⟨d', hd'⟩ := h3.1 ⟨d1, hd1⟩
  exact ⟨d', hd', fun p => by rw [← h4 d1 d' hd1 hd' p]; exact k2 d d1 hd hd1 p⟩

/-! ## A concrete case -/

/-- Settings with a `Value` inside. -/
def exValueFields : List (String × Ty) := [("proxy", .value), ("a", .string)]
def exValueData : Data := .struct [("proxy", (Value.string "q").toData), ("a", .str "2")]

/-- The configuration is exported; the other machine reads settings with a `Value` inside from the file. -/
example : ∃ (w w' : World) (v2 : Value) (d' : Data), (register exB1 ⟨exToml, exToml⟩ exExCalls).buildValue w false = .ok exExBuilt ∧
    exTSFile.writeValue w exExBuilt = (.ok (), w') ∧ (register exB1 ⟨exToml, exToml⟩ exExCalls2).buildValue w' false = .ok v2 ∧
    deAt (fun _ => []) 0 (.struct exValueFields) v2 = .ok d' ∧ DAlike exValueData d' := by
  obtain ⟨w1, -, hw1, -⟩ := exEd_start
  obtain ⟨hh, hd⟩ := exEd_flat [("proxy", .string "q"), ("a", .string "2")] (by simp)
  obtain ⟨w2, hok, hr2, -⟩ := exTS_step hw1 (v := exExBuilt) (r := exExBuilt) rfl hh (by
    rw [show prune exExBuilt = exExBuilt from rfl]
    simp only [exExBuilt, docOf, List.attach, List.attachWith, List.pmap, List.map]; rfl)
  have hread : ∀ bs code wr, w1.disk (w1.locate (os "/c.toml")) ≠ .file bs (some code) wr := by
    intro bs code wr h
    obtain ⟨-, h2, bs', h3⟩ := hw1
    rw [show w1.locate (os "/c.toml") = 3 by rw [h2]; rfl] at h
    rcases h3 with h3 | h3 <;> rw [h3] at h <;> cases h
  have hall : ∀ f ∈ exValueFields, f.2 = .value ∨ f.2 = .string := by simp [exValueFields]
  have hS : WellFormed (.struct exValueFields) := .struct (by decide) fun f hf => by
    rcases hall f hf with h | h <;> rw [h]
    · exact .value
    · exact .string
  have hK : ∀ v, ¬ KeyClash (fun _ => []) (.struct exValueFields) v := by
    intro v h
    cases h with
    | struct hm _ h => rcases hall _ hm with e | e <;> simp only at e <;> subst e <;> cases h
  have hN : ∀ p, ¬ NullEntry exExBuilt p := by
    have hom := omitting_prune' (v := exExBuilt) (by simp [exExBuilt, UniqueKeys, UniqueKeysMap, UniqueKeysEntry])
    rw [show prune exExBuilt = exExBuilt from rfl] at hom
    intro p hn
    have := (hom p).1 hn
    rw [hn.2] at this; cases this
  have hb : (register exB1 ⟨exToml, exToml⟩ exExCalls).buildValue w1 false = .ok exExBuilt := by
    rw [buildValue_is (is_register _ _ _)]; rfl
  have hb2 : (register exB1 ⟨exToml, exToml⟩ exExCalls2).buildValue w2 false =
      .ok ((Value.newMap.merge (.map [("color", .string "red")])).merge exExBuilt) := by
    rw [buildValue_is (is_register _ _ _)]
    show buildList w2 false Value.newMap [("theme", .memory (.map [("color", .string "red")])), ("file", exTSFile)] = _
    simp only [buildList, hr2]
    rfl
  have hpr := exEx_proper (b := exB1) (fm := ⟨exToml, exToml⟩) (calls := exExCalls) (by
      intro c hc
      simp only [exExCalls, List.mem_cons, List.not_mem_nil, or_false] at hc
      rcases hc with rfl | rfl <;> trivial) (by
      intro c hc n x e
      simp only [exExCalls, List.mem_cons, List.not_mem_nil, or_false] at hc
      rcases hc with rfl | rfl <;> cases e <;> simp [UniqueKeys, UniqueKeysMap, UniqueKeysEntry])
  have hpr2 := exEx_proper (b := exB1) (fm := ⟨exToml, exToml⟩) (calls := exExCalls2) (by
      intro c hc
      simp only [exExCalls2, List.mem_cons, List.not_mem_nil, or_false] at hc
      rcases hc with rfl | rfl <;> trivial) (by
      intro c hc n x e
      simp only [exExCalls2, List.mem_cons, List.not_mem_nil, or_false] at hc
      rcases hc with rfl | rfl <;> cases e <;> simp [UniqueKeys, UniqueKeysMap, UniqueKeysEntry])
  obtain ⟨d', h1, h2⟩ := C121_settings_values (exToml_like 80) (by decide) exB1 ⟨exToml, exToml⟩ exExCalls w1 false exExBuilt hb hpr (by
      intro e he x hx _
      have he : e ∈ [("default", Layer.memory (.map [("proxy", .string "p"), ("a", .string "2")])), ("over", Layer.memory (.map [("proxy", .string "q")]))] := he
      simp only [List.mem_cons, List.not_mem_nil, or_false] at he
      rcases he with rfl | rfl <;> cases hx <;> exact (exEd_flat _ (by simp)).2)
    (os "/c.toml") w2 hok hread (fun _ => []) (fun _ => .struct (by simp) (by simp))
    (.struct exValueFields) hS hN 0 exValueData (by rfl) (hK _) exB1 ⟨exToml, exToml⟩ exExCalls2 [("theme", .memory (.map [("color", .string "red")]))] [] "file"
    w2 false _ rfl hpr2 rfl (by
      intro a ha p hp hp0
      simp only [List.append_nil, List.mem_singleton] at ha
      subst ha
      rintro ⟨x, hx, -, hs⟩
      cases hx
      cases hp with
      | here => exact hp0 rfl
      | @struct _ name t p hm _ =>
        refine hs ⟨[], name, p, rfl, fun q hq => by rw [List.prefix_nil] at hq; subst hq; rfl, ?_⟩
        simp only [exValueFields, List.mem_cons, Prod.mk.injEq, List.not_mem_nil, or_false] at hm
        rcases hm with ⟨rfl, -⟩ | ⟨rfl, -⟩ <;> decide) hb2
  exact ⟨w1, w2, _, d', hb, hok, hb2, h1, h2⟩

end Verif.Props
