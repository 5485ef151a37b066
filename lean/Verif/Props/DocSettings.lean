import Verif.Props.DocValues
import Verif.Props.EndToEnd
import Verif.Props.Toml
/-! # Typed settings with a `Value` inside, saved through a text format and over every run (C66, C74, C84) -/
namespace Verif.Props
open Spec

theorem dalike_of_same {a b c : Data} (h : DSame a b) (h' : DAlike b c) : DAlike a c := by
  intro p; rw [h p]; exact h' p

/-- What a typed value serialized to, up to the kind of integers, reads as a value alike. -/
theorem typed_alike_values {structs : Nat → List (String × Ty)} (hs : ∀ n, Survives (.struct (structs n)))
    {T : Ty} (hT : Survives T) {d : Data} (hd : HasType structs T d)
    {x y : Value} (hx : ser d = .ok x) (hy : Alike x y) (hu : UniqueKeys y) :
    ∃ k0, ∀ k, k0 ≤ k → ∃ d', deAt structs k T y = .ok d' ∧ DAlike d d' := by
  have hxu := uniqueKeys_ser d x hx
  obtain ⟨k0, h⟩ := back hs hd hT x hx x (Same.refl x) hxu
  refine ⟨k0, fun k hk => ?_⟩
  obtain ⟨d1, h1, h2⟩ := h k hk
  obtain ⟨k1, k2⟩ := C66_deserialize_values structs (fun n => wellFormed_of_survives (hs n)) T (wellFormed_of_survives hT) k x y hxu hu hy
    (noClash_ser hs hd hT x hx)
  obtain ⟨d', h3⟩ := k1.1 ⟨d1, h1⟩
  exact ⟨d', h3, dalike_of_same h2 (k2 d1 d' h1 h3)⟩

/-- **C66.** Settings of a round-tripping type — `Value` fields, recursive structs and all — that are serialized and written to a file
layer whose format hands back a faithful presentation are read from the layer as settings that have the same paths and show the same
there, up to the kind of integers; if the type has no `Value` inside, as the same settings. -/
theorem C66_typed (c : Codec) (w w' : World) (path : OsStr) (structs : Nat → List (String × Ty))
    (hs : ∀ n, Survives (.struct (structs n))) (T : Ty) (hT : Survives T) (d : Data) (hd : HasType structs T d)
    (v : Value) (hv : ser d = .ok v) (text : String) (doc : Doc)
    (hok : (Layer.newFile (textHandler c) path).writeValue w v = (.ok (), w'))
    (hread : ∀ bs code wr, w.disk (w.locate path) ≠ .file bs (some code) wr)
    (hp : c.print v.toData = .ok text) (hq : c.parse text = .ok doc) (hpres : Presents v doc) :
    ∃ r, (Layer.newFile (textHandler c) path).readValue w' = .ok r ∧
      ∃ k0, ∀ k, k0 ≤ k → ∃ d', deAt structs k T r = .ok d' ∧ DAlike d d' ∧
        ((∀ n, Concrete (.struct (structs n))) → Concrete T → DSame d d') := by
  have hvu := uniqueKeys_ser d v hv
  obtain ⟨r, h1, h2, hru⟩ := C66_reads v hvu doc hpres
  refine ⟨r, C57_read_back c w w' path v r text doc hok hread hp hq h1, ?_⟩
  obtain ⟨k0, hk0⟩ := typed_alike_values hs hT hd hv h2 hru
  by_cases hcon : (∀ n, Concrete (.struct (structs n))) ∧ Concrete T
  · obtain ⟨k1, hk1⟩ := typed_alike hs hcon.1 hT hcon.2 hd hv h2 hru
    refine ⟨max k0 k1, fun k hk => ?_⟩
    obtain ⟨d', e1, e2⟩ := hk0 k (le_trans (le_max_left _ _) hk)
    obtain ⟨d'', e3, e4⟩ := hk1 k (le_trans (le_max_right _ _) hk)
    rw [e1] at e3; cases e3
    exact ⟨d', e1, e2, fun _ _ => e4⟩
  · refine ⟨k0, fun k hk => ?_⟩
    obtain ⟨d', e1, e2⟩ := hk0 k hk
    exact ⟨d', e1, e2, fun h h' => absurd ⟨h, h'⟩ hcon⟩

/-- **C74.** A typed default with a `Value` inside comes back in every run too, up to the kind of integers in that `Value`. -/
theorem C74_typed_values (b : Build) (fm : Formats) (w : World) (args : MacroArgs) (hc : CleanStart b w args) (dv : Value)
    (hdv : valueMapMacro args.default = some dv) (hf : FaithfulOn fm dv)
    (structs : Nat → List (String × Ty)) (hs : ∀ n, Survives (.struct (structs n)))
    (T : Ty) (hT : Survives T) (d : Data) (hd : HasType structs T d)
    (before after : List (String × Value)) (key : String) (x : Value) (hargs : args.default = before ++ (key, x) :: after)
    (hlast : ∀ e ∈ after, e.1 ≠ key) (hx : ser d = .ok x)
    (n : Nat) (skip : Bool) (c : Config) (w' : World) (hrun : nthRun b fm w args n = .ok (c, w')) :
    ∃ v, c.buildValue w' skip = .ok v ∧ ∃ k0, ∀ k, k0 ≤ k → ∃ d', deAt structs k T (v.get key) = .ok d' ∧ DAlike d d' := by
  obtain ⟨c0, c1, w1, -, h1, v, hv, ha, hu⟩ := C74_every_run b fm w args hc dv hdv hf n skip
  rw [hrun] at h1; cases h1
  refine ⟨v, hv, ?_⟩
  have hget : dv.get key = x := by
    obtain ⟨y, hy, -, -, h⟩ := C19_value_map args.default
    rw [hdv] at hy; cases hy
    apply h
    rw [lastSet, hargs, List.reverse_append, List.reverse_cons, List.append_assoc, List.find?_append]
    rw [show after.reverse.find? (fun e => e.1 == key) = none from by
      rw [List.find?_eq_none]; intro e he; simpa using hlast e (List.mem_reverse.1 he)]
    simp
  have halike := (C66_conversions v dv ha).2.2.1 key
  rw [hget] at halike
  exact typed_alike_values hs hT hd hx (Alike.symm halike) ((C22_unique_keys v x hu (uniqueKeys_ser d x hx) key 0).2.2.2.2.1)

/-- **C84.** Settings of a round-tripping type, `Value` fields and maps of options included, that serialize to a value without `None`
entries (what is optional is set, and there is no null in a map inside a `Value`) are read back from a TOML file as settings that have the
same paths and show the same there, up to the kind of integers; if the type has no `Value` inside, as the same settings. -/
theorem C84_typed_values {limit : Nat} {cd : Codec} (ht : TomlLike limit cd) (structs : Nat → List (String × Ty))
    (hs : ∀ n, Survives (.struct (structs n))) (T : Ty) (hT : Survives T) (d : Data) (hd : HasType structs T d)
    (v : Value) (hv : ser d = .ok v) (hno : ∀ p, ¬ NullEntry v p) (hdepth : DepthBelow v limit) (w w' : World) (path : OsStr)
    (hok : (Layer.newFile (textHandler cd) path).writeValue w v = (.ok (), w'))
    (hread : ∀ bs code wr, w.disk (w.locate path) ≠ .file bs (some code) wr) :
    ∃ r, (Layer.newFile (textHandler cd) path).readValue w' = .ok r ∧
      ∃ k0, ∀ k, k0 ≤ k → ∃ d', deAt structs k T r = .ok d' ∧ DAlike d d' ∧
        ((∀ n, Concrete (.struct (structs n))) → Concrete T → DSame d d') := by
  have hvu := uniqueKeys_ser d v hv
  obtain ⟨-, s, r, h1, hom, hus, hal, hru⟩ := toml_stored ht hvu hdepth hok hread
  have h2 : Alike v r := by
    intro p
    rw [← (hom p).2 (hno p)]; exact hal p
  refine ⟨r, h1, ?_⟩
  obtain ⟨k0, hk0⟩ := typed_alike_values hs hT hd hv h2 hru
  by_cases hcon : (∀ n, Concrete (.struct (structs n))) ∧ Concrete T
  · obtain ⟨k1, hk1⟩ := typed_alike hs hcon.1 hT hcon.2 hd hv h2 hru
    refine ⟨max k0 k1, fun k hk => ?_⟩
    obtain ⟨d', e1, e2⟩ := hk0 k (le_trans (le_max_left _ _) hk)
    obtain ⟨d'', e3, e4⟩ := hk1 k (le_trans (le_max_right _ _) hk)
    rw [e1] at e3; cases e3
    exact ⟨d', e1, e2, fun _ _ => e4⟩
  · refine ⟨k0, fun k hk => ?_⟩
    obtain ⟨d', e1, e2⟩ := hk0 k hk
    exact ⟨d', e1, e2, fun h h' => absurd ⟨h, h'⟩ hcon⟩

/-! ### Concrete cases -/

/-- A struct with a `Value` in it, saved to TOML and read back. -/
example : ∃ w' r, (Layer.newFile (textHandler exToml) (os "/c.toml")).readValue w' = .ok r ∧ ∃ k d',
    deAt (fun _ => []) k (.struct [("port", .value), ("tags", .seq .string)]) r = .ok d' ∧
    DAlike (.struct [("port", (Value.integer ⟨80, by decide⟩).toData), ("tags", .seq [.str "a"])]) d' := by
  have hu : UniqueKeys (.map [("port", .integer ⟨80, by decide⟩), ("tags", .array [.string "a"])]) := by
    simp [UniqueKeys, UniqueKeysList, UniqueKeysMap, UniqueKeysEntry]
  have hholds : TomlHolds (.map [("port", .integer ⟨80, by decide⟩), ("tags", .array [.string "a"])]) := by
    refine .map ?_
    intro e he
    simp only [List.mem_cons, List.not_mem_nil, or_false] at he
    rcases he with rfl | rfl
    · intro _; exact .integer _
    · intro _; refine .array ?_; intro x hx; simp only [List.mem_singleton] at hx; subst hx; exact .string _
  have hp : prune exSaved = .map [("port", .integer ⟨80, by decide⟩), ("tags", .array [.string "a"])] := rfl
  have hom := omitting_prune' exSaved_unique
  have hdepth : DepthBelow (prune exSaved) 80 := by
    intro p h
    apply exSaved_depth p
    intro h0
    by_cases hn : NullEntry exSaved p
    · exact h ((hom p).1 hn)
    · exact h (((hom p).2 hn).trans h0)
  have hno : ∀ p, ¬ NullEntry (prune exSaved) p := by
    rintro p ⟨hk, h⟩
    by_cases hn : NullEntry exSaved p
    · rw [(hom p).1 hn] at h; cases h
    · exact hn ⟨hk, ((hom p).2 hn).symm.trans h⟩
  rw [hp] at hdepth hno
  obtain ⟨w', hok⟩ := (C84_write (exToml_like 80) exDisk (os "/c.toml") _).2 ⟨rfl, hholds⟩ _ rfl rfl
  obtain ⟨r, hr, k0, h⟩ := C84_typed_values (exToml_like 80) (fun _ => []) (fun _ => .struct (by simp) (by simp))
    (.struct [("port", .value), ("tags", .seq .string)])
    (.struct (by decide) (by
      intro f hf
      simp only [List.mem_cons, List.not_mem_nil, or_false] at hf
      rcases hf with rfl | rfl
      exacts [.value, .seq .string]))
    (.struct [("port", (Value.integer ⟨80, by decide⟩).toData), ("tags", .seq [.str "a"])])
    (.struct rfl (by
      rintro (_ | _ | i) f d hf hd
      · simp at hf hd; subst hf; subst hd; exact .value _ (by simp [UniqueKeys])
      · simp at hf hd; subst hf; subst hd; refine .seq ?_; intro d hd; simp at hd; subst hd; exact .string _
      · simp at hf))
    _ rfl hno hdepth exDisk w' (os "/c.toml") hok (by intro bs code wr h; cases h)
  obtain ⟨d', h1, h2, -⟩ := h k0 le_rfl
  exact ⟨w', r, hr, k0, d', h1, h2⟩

/-- A struct with a `Value` in it, written to a file whose format hands back the integer in another kind and the map in another order. -/
example : ∃ w' r, (Layer.newFile (textHandler { parse := fun _ => .ok exPresented, print := fun _ => .ok "t" }) (os "/a.toml")).writeValue
      exDisk exOriginal = (.ok (), w') ∧
    (Layer.newFile (textHandler { parse := fun _ => .ok exPresented, print := fun _ => .ok "t" }) (os "/a.toml")).readValue w' = .ok r ∧
    ∃ k d', deAt (fun _ => []) k (.struct [("b", .value), ("a", .char)]) r = .ok d' ∧
      DAlike (.struct [("b", (Value.array [.uInteger ⟨7, by decide⟩, .none]).toData), ("a", .char 'x')]) d' := by
  obtain ⟨r, h1, k0, h2⟩ := C66_typed { parse := fun _ => .ok exPresented, print := fun _ => .ok "t" } exDisk _ (os "/a.toml") (fun _ => [])
    (fun _ => .struct (by simp) (by simp)) (.struct [("b", .value), ("a", .char)])
    (.struct (by decide) (by
      intro f hf
      simp only [List.mem_cons, List.not_mem_nil, or_false] at hf
      rcases hf with rfl | rfl
      exacts [.value, .char]))
    (.struct [("b", (Value.array [.uInteger ⟨7, by decide⟩, .none]).toData), ("a", .char 'x')])
    (.struct rfl (by
      intro i f d hf hd
      match i with
      | 0 => cases hf; cases hd; exact .value _ (by simp [UniqueKeys, UniqueKeysList])
      | 1 => cases hf; cases hd; exact .char _
      | i + 2 => cases hf))
    exOriginal rfl "t" exPresented rfl
    (by
      intro bs code wr hd
      have e : exDisk.disk (exDisk.locate (os "/a.toml")) = .file (utf8 "hi") none none := by rfl
      rw [e] at hd; cases hd) rfl rfl exPresents
  obtain ⟨d', h3, h4, -⟩ := h2 k0 le_rfl
  exact ⟨_, r, rfl, h1, k0, d', h3, h4⟩

/-- The port of the defaults, read as a `Value` on the third run. -/
example : ∃ c w' v, nthRun exB1 ⟨exSignedCodec, exSignedCodec⟩ exFresh exTypedArgs 3 = .ok (c, w') ∧
    c.buildValue w' false = .ok v ∧ ∃ k d', deAt (fun _ => []) k .value (v.get "port") = .ok d' ∧
      DAlike (Value.uInteger ⟨8080, by decide⟩).toData d' := by
  obtain ⟨dv, hdv, -⟩ := C19_value_map exTypedArgs.default
  obtain ⟨c0, c, w', -, hrun, -⟩ := C74_every_run exB1 ⟨exSignedCodec, exSignedCodec⟩ exFresh exTypedArgs exCleanStart dv hdv
    (exFaithful dv hdv) 3 false
  obtain ⟨v, hv, k0, h⟩ := C74_typed_values exB1 ⟨exSignedCodec, exSignedCodec⟩ exFresh exTypedArgs exCleanStart dv hdv (exFaithful dv hdv)
    (fun _ => []) (fun _ => .struct (by simp) (by simp)) .value .value
    (Value.uInteger ⟨8080, by decide⟩).toData (.value _ (by simp [UniqueKeys])) [] [("hosts", .array [.string "a", .string "b"])] "port"
    (.uInteger ⟨8080, by decide⟩) rfl (by simp) rfl 3 false c w' hrun
  obtain ⟨d', h1, h2⟩ := h k0 le_rfl
  exact ⟨c, w', v, hrun, hv, k0, d', h1, h2⟩

end Verif.Props
