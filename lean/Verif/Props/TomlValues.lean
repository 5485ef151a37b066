import Verif.Props.TomlMacro
import Verif.Props.DocSettings
/-! # Typed defaults with a `Value` inside, kept in TOML over every run (C85) -/
namespace Verif.Props
open Spec

/-- **C85.** Defaults that are the fields of a struct of any round-tripping type — `Value` fields, maps of options and all — are read back from
the built value in every run, up to the kind of the integers in a `Value`, if no table inside a list has a `None` entry. A `Value` that is
`None` comes back too, though the file does not have it. -/
theorem C85_typed_values {limit : Nat} (b : Build) (fm : Formats) (w : World) (args : MacroArgs) (hc : CleanStart b w args) (dv : Value)
    (hdv : valueMapMacro args.default = some dv) (hf : FormatsFor limit b fm dv) (hlists : ∀ p, NullEntry dv p → ∀ i, Step.idx i ∉ p)
    (structs : Nat → List (String × Ty)) (hs : ∀ n, Survives (.struct (structs n)))
    (fs : List (String × Ty)) (hT : Survives (.struct fs)) (ds : List (String × Data)) (hd : HasType structs (.struct fs) (.struct ds))
    (hargs : List.Forall₂ (fun nd e => e.1 = nd.1 ∧ ser nd.2 = .ok e.2) ds args.default)
    (n : Nat) (skip : Bool) (c : Config) (w' : World) (hrun : nthRun b fm w args n = .ok (c, w')) :
    ∃ v, c.buildValue w' skip = .ok v ∧ ∃ k0, ∀ k, k0 ≤ k → ∃ d', deAt structs k (.struct fs) v = .ok d' ∧ DAlike (.struct ds) d' := by
  obtain ⟨c0, c1, w1, -, h1, v, hv, -, hu⟩ := C85_every_run b fm w args hc dv hdv hf n skip
  rw [hrun] at h1; cases h1
  obtain ⟨v', hv', ha⟩ := C85_all b fm w args hc dv hdv hf hlists n skip c w' hrun
  rw [hv] at hv'; cases hv'
  refine ⟨v, hv, typed_alike_values hs hT hd (x := dv) ?_ ha hu⟩
  rw [ser_struct]
  refine ⟨args.default, hargs, ?_⟩
  rw [valueMapMacro_eq, Option.some.injEq] at hdv
  rw [← hdv, Value.newMap, insAll_eq_sets]

/-! ## A concrete case -/

/-- Defaults with a `None` that is not inside a list: in the seventh run they are read into a struct with a `Value`, which is `None`. -/
example : ∃ c w' v, nthRun exB1 ⟨exToml, exToml⟩ exFresh
      { fileName := "f", default := [("proxy", .none), ("name", .string "a")], env := none, layers := [⟨"one", [.path "/b"], some true⟩] } 7 = .ok (c, w') ∧
    c.buildValue w' false = .ok v ∧ ∃ k d', deAt (fun _ => []) k (.struct [("proxy", .value), ("name", .string)]) v = .ok d' ∧
      DAlike (.struct [("proxy", Value.none.toData), ("name", .str "a")]) d' := by
  let args : MacroArgs := { fileName := "f", default := [("proxy", .none), ("name", .string "a")], env := none, layers := [⟨"one", [.path "/b"], some true⟩] }
  let dv : Value := .map [("proxy", .none), ("name", .string "a")]
  have hdv : valueMapMacro args.default = some dv := rfl
  have hclean : CleanStart exB1 exFresh args := by
    have h := exOpt_clean
    refine ⟨h.names, ?_, h.absent, h.room, h.places, h.env⟩
    intro e he
    simp only [args, List.mem_cons, List.not_mem_nil, or_false] at he
    rcases he with rfl | rfl <;> trivial
  have hdepth : DepthBelow dv 80 := by
    refine depth_mono (k := 2) (depth_node fun s x hx => ?_) (by decide)
    cases s with
    | idx i => cases hx
    | key k =>
      have := hmGet_mem ((child_key_map _ _).symm.trans hx)
      simp only [List.mem_cons, List.not_mem_nil, or_false, Prod.mk.injEq] at this
      rcases this with ⟨-, rfl⟩ | ⟨-, rfl⟩ <;> exact depth_leaf (by rintro (_ | _) <;> rfl)
  have hf : FormatsFor 80 exB1 ⟨exToml, exToml⟩ dv := ⟨fun _ => ⟨exToml_like 80, hdepth⟩, fun h => by cases h⟩
  obtain ⟨c0, c, w', -, hrun, -⟩ := C85_every_run exB1 ⟨exToml, exToml⟩ exFresh args hclean dv hdv hf 7 false
  have hl : ∀ p, NullEntry dv p → ∀ i, Step.idx i ∉ p := by
    rintro p ⟨⟨q, k, rfl⟩, hp⟩ i hi
    rw [List.mem_append] at hi
    rcases hi with hi | hi
    rotate_left
    · simp at hi
    · cases q with
      | nil => cases hi
      | cons s q =>
        cases s with
        | idx j => rw [List.cons_append, view_cons] at hp; cases hp
        | key k' =>
          rw [List.cons_append, view_cons, show child dv (.key k') = hmGet _ k' from child_key_map _ _] at hp
          cases hg : hmGet [("proxy", Value.none), ("name", .string "a")] k' with
          | none => rw [hg] at hp; cases hp
          | some x =>
            rw [hg] at hp
            have := hmGet_mem hg
            simp only [List.mem_cons, List.not_mem_nil, or_false, Prod.mk.injEq] at this
            rcases this with ⟨-, rfl⟩ | ⟨-, rfl⟩ <;>
            · rcases q with _ | ⟨_ | _, q⟩ <;> cases hp
  obtain ⟨v, hv, k0, h⟩ := C85_typed_values exB1 ⟨exToml, exToml⟩ exFresh args hclean dv hdv hf hl (fun _ => []) (fun _ => .struct (by simp) (by simp))
    [("proxy", .value), ("name", .string)]
    (.struct (by decide) (by
      intro f hf
      simp only [List.mem_cons, List.not_mem_nil, or_false] at hf
      rcases hf with rfl | rfl
      exacts [.value, .string]))
    [("proxy", Value.none.toData), ("name", .str "a")]
    (.struct rfl (by
      rintro (_ | _ | i) f d hf hd
      · simp at hf hd; subst hf; subst hd; exact .value _ (by simp [UniqueKeys])
      · simp at hf hd; subst hf; subst hd; exact .string _
      · simp at hf))
    (.cons ⟨rfl, rfl⟩ (.cons ⟨rfl, rfl⟩ .nil)) 7 false c w' hrun
  obtain ⟨d', h1, h2⟩ := h k0 le_rfl
  exact ⟨c, w', v, hrun, hv, k0, d', h1, h2⟩

end Verif.Props
