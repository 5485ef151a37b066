import Verif.Lemmas.EndToEnd
/-!
# End to end: typed defaults through `create_config!`, the disk and the formats (C74–C77)
-/
namespace Verif.Props
open Spec

/-! ## C74 -/

theorem Alike.trans {a b c : Value} (h : Alike a b) (h' : Alike b c) : Alike a c := by
  intro p
  rcases h p with ⟨h1, h2⟩ | ⟨x, y, h1, h2, h3⟩ <;> rcases h' p with ⟨k1, k2⟩ | ⟨x', y', k1, k2, k3⟩
  · exact Or.inl ⟨h1, k2⟩
  · rw [h2] at k1; cases k1
  · rw [h2] at k1; cases k1
  · rw [h2] at k1; cases k1
    refine Or.inr ⟨x, y', h1, k2, ?_⟩
    rcases h3 with rfl | ⟨n, h3, h4⟩ <;> rcases k3 with rfl | ⟨m, k3, k4⟩
    · exact Or.inl rfl
    · exact Or.inr ⟨m, k3, k4⟩
    · exact Or.inr ⟨n, h3, h4⟩
    · rw [h4] at k3; cases k3
      exact Or.inr ⟨n, h3, k4⟩

theorem alike_of_same {a b : Value} (h : Same a b) : Alike a b := by
  intro p
  rw [h p]
  exact Alike.refl b p

theorem fold_alike_defaults {dv : Value} (hdu : UniqueKeys dv) (vs : List Value) : ∀ v : Value, Alike v dv →
    UniqueKeys v → (∀ x ∈ vs, x = .map [] ∨ (Alike x dv ∧ UniqueKeys x)) →
    Alike (vs.foldl Value.merge v) dv ∧ UniqueKeys (vs.foldl Value.merge v) := by
  induction vs with
  | nil => intro v h hu _; exact ⟨h, hu⟩
  | cons x vs ih =>
    intro v h hvu hx
    rw [List.foldl_cons]
    apply ih
    · rcases hx x (by simp) with rfl | ⟨hs, hxu⟩
      · rw [C02_merge_empty]; exact h
      · exact Alike.trans (alike_merge h hs hxu hdu) (alike_of_same (C02_merge_self dv hdu))
    · rcases hx x (by simp) with rfl | ⟨hs, hxu⟩
      · rw [C02_merge_empty]; exact hvu
      · exact uniqueKeys_merge hvu hxu
    · exact fun y hy => hx y (by simp [hy])

/-- In this world every candidate reads as nothing or as described by `P`. -/
def HoldsDefaults (b : Build) (fm : Formats) (w : World) (args : MacroArgs) (P : Value → Prop) : Prop :=
  ∀ l ∈ args.layers, ∀ p ∈ layerCandidates b w args.fileName l, ∀ name e, (RegCall.file name p).offer b fm = some e →
    ∃ y, e.2.readValue w = .ok y ∧ (y = .map [] ∨ P y)

/-- What the enabled formats print for the value, they read back as something described by `P`. -/
def ReadsAs (b : Build) (fm : Formats) (dv : Value) (P : Value → Prop) : Prop :=
  ∀ fmt, (b.toml = true ∧ fmt = fm.toml) ∨ (b.json = true ∧ fmt = fm.json) → ∀ text, fmt.print dv.toData = .ok text →
    ∃ doc v, fmt.parse text = .ok doc ∧ visit doc = .ok v ∧ P v

theorem holdsDefaults_first {b : Build} {fm : Formats} {w : World} {args : MacroArgs} (hc : CleanStart b w args) {c : Config} {w' : World}
    (h : createConfig b fm w args = .ok (c, w')) {dv : Value} (hdv : valueMapMacro args.default = some dv) {P : Value → Prop}
    (hf : ReadsAs b fm dv P) : SameEnv w w' ∧ HoldsDefaults b fm w' args P := by
  obtain ⟨dv', hdv', hcreated⟩ := C61_init_safe b fm w args hc.names c w' h
  rw [hdv] at hdv'; cases hdv'
  refine ⟨hcreated.same, ?_⟩
  intro l hl p hp name e ho
  rw [hcreated.same.candidates] at hp
  obtain ⟨cd, rfl, hcd⟩ := offer_file ho
  have habs := hc.absent _ hl _ hp
  rcases hcreated.2 (w.locate p) with hsame | ⟨-, bytes, ⟨l', hl', hi, q, hq, hs, fmt, text, hfm, hprint, -, hall⟩, hfile⟩
  · refine ⟨.map [], C56_missing _ w' p ?_, Or.inl rfl⟩
    have : w'.disk (w'.locate p) = w.disk (w.locate p) := by rw [hcreated.same.locate]; exact hsame
    rw [pathExists_congr this]; exact habs
  · have hext := hc.places _ hl _ hl' _ hp _ (List.mem_of_mem_head? hq) hs
    have hcd' : cd = fmt := TextFmt.unique (p := p) (q := q) hcd hfm hext
    subst hcd'
    have hb : bytes = utf8 text := hall (hc.room _)
    subst hb
    obtain ⟨doc, v, hparse, hvisit, hP⟩ := hf cd (hfm.elim (fun h => Or.inl h.2) (fun h => Or.inr h.2)) text hprint
    have hd' : w'.disk (w'.locate p) = .file (utf8 text) none none := by rw [hcreated.same.locate]; exact hfile
    exact ⟨v, (C56_content cd w' p (read_text hd').2 v).2 ⟨text, doc, none, hd', hparse, hvisit⟩, Or.inr hP⟩

theorem builds_defaults {b : Build} {fm : Formats} {w : World} {args : MacroArgs} {c : Config} {w' : World}
    (h : createConfig b fm w args = .ok (c, w')) (hsame : SameEnv w w') {dv : Value} (hdv : valueMapMacro args.default = some dv)
    (hu : ∀ e ∈ args.default, UniqueKeys e.2) {P : Value → Prop} (hold : HoldsDefaults b fm w' args P)
    (henv : ∀ pre, args.env = some pre → ∃ P, Trimmed pre P ∧ P ≠ "" ∧ ∀ a ∈ w.env, ¬ ∃ k s, Lands P a k ∧ HasText a s) (skip : Bool) :
    ∃ more : List Value, c.buildValue w' skip = .ok (more.foldl Value.merge (Value.newMap.merge dv)) ∧ (∀ x ∈ more, x = .map [] ∨ P x) ∧
      dv.isMap = true ∧ UniqueKeys dv := by
  obtain ⟨c2, w2, dv2, e1, e2, files, e3, e4, e5, -⟩ := C60_order b fm w args
  rw [h] at e1; cases e1
  rw [hdv] at e2; cases e2
  have hdm : dv.isMap = true := by
    obtain ⟨x, hx, hxm, -⟩ := C19_value_map args.default
    rw [hdv] at hx; cases hx; exact hxm
  have hdu : UniqueKeys dv := (C22_macros args.default hu [] (by simp)).1 dv hdv
  have hrest : ∀ e ∈ offers b fm (files.map (fun x => .file x.1.name x.2) ++
      (args.env.map fun pre => RegCall.environment "environment" pre).toList),
      ∃ y, e.2.readValue w' = .ok y ∧ (y = .map [] ∨ P y) := by
    intro e he
    obtain ⟨call, hcall, ho⟩ := List.mem_filterMap.1 he
    rcases List.mem_append.1 hcall with hcall | hcall
    · obtain ⟨x, hx, rfl⟩ := List.mem_map.1 hcall
      have hxl : x.1 ∈ args.layers := by
        have : x.1 ∈ files.map Prod.fst := List.mem_map_of_mem hx
        rw [e4] at this; exact (List.mem_filter.1 this).1
      exact hold x.1 hxl x.2 (by rw [hsame.candidates]; exact e5 x hx) _ e ho
    · cases hpre : args.env with
      | none => rw [hpre] at hcall; cases hcall
      | some pre =>
        rw [hpre] at hcall
        simp at hcall; subst hcall; cases ho
        obtain ⟨P, hP, hne, hno⟩ := henv pre hpre
        refine ⟨.map [], readEnv_nothing hP hne ?_, Or.inl rfl⟩
        rw [hsame.env]; exact hno
  rw [List.append_assoc] at e3
  obtain ⟨more, hm1, hm2⟩ := C60_default_first b fm dv (files.map (fun x => .file x.1.name x.2) ++
      (args.env.map fun pre => RegCall.environment "environment" pre).toList)
  have hmore : ∀ e ∈ more, ∃ y, e.2.readValue w' = .ok y ∧ (y = .map [] ∨ P y) := by
    intro e he
    rw [hm2] at he
    exact hrest e (mem_firsts (List.mem_filter.1 he).1)
  rw [e3]
  refine ⟨readables w' more, ?_, ?_, hdm, hdu⟩
  · have hfold : (readables w' (firsts (offers b fm ([.memory "default" dv] ++ (files.map (fun x => .file x.1.name x.2) ++
        (args.env.map fun pre => RegCall.environment "environment" pre).toList))))).foldl Value.merge Value.newMap =
        (readables w' more).foldl Value.merge (Value.newMap.merge dv) := by rw [hm1]; rfl
    rw [buildValue_is (is_register b fm _), ← hfold]
    cases skip with
    | true => rw [buildList_true]
    | false =>
      rw [((buildList_false w' _ _).1 _).2]
      refine ⟨fun e he => ?_, rfl⟩
      rw [hm1] at he
      rcases List.mem_cons.1 he with rfl | he
      · exact ⟨dv, rfl⟩
      · obtain ⟨y, hy, -⟩ := hmore e he; exact ⟨y, hy⟩
  · intro x hx
    obtain ⟨e, he, hr⟩ := List.mem_filterMap.1 hx
    obtain ⟨y, hy, hyy⟩ := hmore e he
    rw [hy] at hr; cases hr; exact hyy

theorem nthRun_inv {b : Build} {fm : Formats} {w : World} {args : MacroArgs} (hc : CleanStart b w args) {dv : Value}
    (hdv : valueMapMacro args.default = some dv) {P : Value → Prop} (hf : ReadsAs b fm dv P) : ∀ (n : Nat) (c : Config) (w' : World),
    nthRun b fm w args n = .ok (c, w') → ∃ c0 w0, createConfig b fm w args = .ok (c0, w0) ∧ w' = w0 ∧ SameEnv w w' ∧
      HoldsDefaults b fm w' args P ∧ ∃ w1, createConfig b fm w1 args = .ok (c, w') ∧ SameEnv w w1 ∧ SameEnv w1 w' := by
  intro n
  induction n with
  | zero =>
    intro c w' h
    obtain ⟨h1, h2⟩ := holdsDefaults_first hc h hdv hf
    exact ⟨c, w', h, rfl, h1, h2, w, h, SameEnv.refl w, h1⟩
  | succ n ih =>
    intro c w' h
    rw [nthRun, bind_eq_ok] at h
    obtain ⟨⟨c1, w1⟩, h1, h2⟩ := h
    obtain ⟨c0, w0, k1, rfl, k2, k3, -⟩ := ih c1 w1 h1
    have := C62_second_run b fm w args hc.names c0 c w1 w' k1 h2
    subst this
    exact ⟨c0, w', k1, rfl, k2, k3, w', h2, k2, SameEnv.refl w'⟩

theorem every_run {b : Build} {fm : Formats} {w : World} {args : MacroArgs} (hc : CleanStart b w args) {dv : Value}
    (hdv : valueMapMacro args.default = some dv) {P : Value → Prop} (hf : ReadsAs b fm dv P) (n : Nat) (skip : Bool) :
    ∃ c0 c w', createConfig b fm w args = .ok (c0, w') ∧ nthRun b fm w args n = .ok (c, w') ∧
      ∃ more : List Value, c.buildValue w' skip = .ok (more.foldl Value.merge (Value.newMap.merge dv)) ∧ (∀ x ∈ more, x = .map [] ∨ P x) ∧
      dv.isMap = true ∧ UniqueKeys dv := by
  have hok : ∃ c w', nthRun b fm w args n = .ok (c, w') := by
    induction n with
    | zero => obtain ⟨c, w', _, h, -⟩ := C60_order b fm w args; exact ⟨c, w', h⟩
    | succ n ih =>
      obtain ⟨c, w', h⟩ := ih
      obtain ⟨c', w'', _, h', -⟩ := C60_order b fm w' args
      exact ⟨c', w'', by rw [nthRun, bind_eq_ok]; exact ⟨_, h, h'⟩⟩
  obtain ⟨c, w', h⟩ := hok
  obtain ⟨c0, w0, h0, rfl, -, hold, w1, h1, hs1, hs2⟩ := nthRun_inv hc hdv hf n c w' h
  refine ⟨c0, c, w', h0, h, builds_defaults h1 hs2 hdv hc.uniqueKeys hold ?_ skip⟩
  rw [hs1.env]; exact hc.env

/-- **C74.** From a clean start, in every run: `create_config!` succeeds, the disk is as the first run left it, and the built value shows
the defaults at every path (up to the kind of integers, which the formats need not keep). -/
theorem C74_every_run (b : Build) (fm : Formats) (w : World) (args : MacroArgs) (hc : CleanStart b w args) (dv : Value)
    (hdv : valueMapMacro args.default = some dv) (hf : FaithfulOn fm dv) (n : Nat) (skip : Bool) :
    ∃ c0 c w', createConfig b fm w args = .ok (c0, w') ∧ nthRun b fm w args n = .ok (c, w') ∧
      ∃ v, c.buildValue w' skip = .ok v ∧ Alike v dv ∧ UniqueKeys v := by
  have hdu : UniqueKeys dv := (C22_macros args.default hc.uniqueKeys [] (by simp)).1 dv hdv
  obtain ⟨c0, c, w', h1, h2, more, h3, h4, hdm, -⟩ := every_run (P := fun y => Alike y dv ∧ UniqueKeys y) hc hdv (by
    intro fmt hfmt text hp
    obtain ⟨doc, hparse, hpres⟩ := hf fmt (hfmt.elim (fun h => Or.inl h.2) (fun h => Or.inr h.2)) text hp
    obtain ⟨v, hvisit, halike, hvu⟩ := C66_reads dv hdu doc hpres
    exact ⟨doc, v, hparse, hvisit, Alike.symm halike, hvu⟩) n skip
  exact ⟨c0, c, w', h1, h2, _, h3, fold_alike_defaults hdu more _ (alike_of_same (C02_empty_merge dv hdm hdu))
    (uniqueKeys_merge (uniqueKeys_map.2 ⟨List.nodup_nil, by simp⟩) hdu) h4⟩

theorem typed_alike {structs : Nat → List (String × Ty)} (hs : ∀ n, Survives (.struct (structs n)))
    (hsc : ∀ n, Concrete (.struct (structs n))) {T : Ty} (hT : Survives T) (hTc : Concrete T) {d : Data} (hd : HasType structs T d)
    {x y : Value} (hx : ser d = .ok x) (hy : Alike x y) (hu : UniqueKeys y) :
    ∃ k0, ∀ k, k0 ≤ k → ∃ d', deAt structs k T y = .ok d' ∧ DSame d d' := by
  have hxu := uniqueKeys_ser d x hx
  obtain ⟨k0, h⟩ := back hs hd hT x hx x (Same.refl x) hxu
  refine ⟨k0, fun k hk => ?_⟩
  obtain ⟨d1, h1, h2⟩ := h k hk
  obtain ⟨k1, k2⟩ := C66_deserialize structs (fun n => wellFormed_of_survives (hs n)) hsc T (wellFormed_of_survives hT) hTc k x y hxu hu hy
    (noClash_ser hs hd hT x hx)
  obtain ⟨d', h3⟩ := k1.1 ⟨d1, h1⟩
  exact ⟨d', h3, fun p => (h2 p).trans (k2 d1 d' h1 h3 p)⟩

/-- **C74.** A typed default comes back: if the default written for a key is what a value `d` of a round-tripping type serializes to,
then in every run reading that key of the built value as the type gives `d` (the stack sufficing for recursive structs). -/
theorem C74_typed_default (b : Build) (fm : Formats) (w : World) (args : MacroArgs) (hc : CleanStart b w args) (dv : Value)
    (hdv : valueMapMacro args.default = some dv) (hf : FaithfulOn fm dv)
    (structs : Nat → List (String × Ty)) (hs : ∀ n, Survives (.struct (structs n))) (hsc : ∀ n, Concrete (.struct (structs n)))
    (T : Ty) (hT : Survives T) (hTc : Concrete T) (d : Data) (hd : HasType structs T d)
    (before after : List (String × Value)) (key : String) (x : Value) (hargs : args.default = before ++ (key, x) :: after)
    (hlast : ∀ e ∈ after, e.1 ≠ key) (hx : ser d = .ok x)
    (n : Nat) (skip : Bool) (c : Config) (w' : World) (hrun : nthRun b fm w args n = .ok (c, w')) :
    ∃ v, c.buildValue w' skip = .ok v ∧ ∃ k0, ∀ k, k0 ≤ k → ∃ d', deAt structs k T (v.get key) = .ok d' ∧ DSame d d' := by
  obtain ⟨c0, c1, w1, -, h1, v, hv, ha, hu⟩ := C74_every_run b fm w args hc dv hdv hf n skip
  rw [hrun] at h1; cases h1
  refine ⟨v, hv, ?_⟩
  have hget : dv.get key = x := by
    obtain ⟨y, hy, -, -, h⟩ := C19_value_map args.default
    rw [hdv] at hy; cases hy
    apply h
    rw [lastSet, hargs, List.reverse_append, List.reverse_cons, List.append_assoc, List.find?_append]
    rw [show after.reverse.find? (fun e => e.1 == key) = none from by
      rw [List.find?_eq_none]; intro e he; simpa using hlast e (List.mem_reverse.1 he)]
    simp
  have halike := (C66_conversions v dv ha).2.2.1 key
  rw [hget] at halike
  exact typed_alike hs hsc hT hTc hd hx (Alike.symm halike) ((C22_unique_keys v x hu (uniqueKeys_ser d x hx) key 0).2.2.2.2.1)

theorem insAll_eq_sets (kvs : List (String × Value)) : ∀ m, runSets (.map m) kvs = .map (insAll m kvs) := by
  intro m
  rw [runSets_map]; rfl

/-- **C74.** So does a whole struct of defaults: if the defaults are the fields of a struct value, every run reads that struct value from
the built value. -/
theorem C74_typed_struct (b : Build) (fm : Formats) (w : World) (args : MacroArgs) (hc : CleanStart b w args) (dv : Value)
    (hdv : valueMapMacro args.default = some dv) (hf : FaithfulOn fm dv)
    (structs : Nat → List (String × Ty)) (hs : ∀ n, Survives (.struct (structs n))) (hsc : ∀ n, Concrete (.struct (structs n)))
    (fs : List (String × Ty)) (hT : Survives (.struct fs)) (hTc : Concrete (.struct fs)) (ds : List (String × Data))
    (hd : HasType structs (.struct fs) (.struct ds))
    (hargs : List.Forall₂ (fun nd e => e.1 = nd.1 ∧ ser nd.2 = .ok e.2) ds args.default)
    (n : Nat) (skip : Bool) (c : Config) (w' : World) (hrun : nthRun b fm w args n = .ok (c, w')) :
    ∃ v, c.buildValue w' skip = .ok v ∧ ∃ k0, ∀ k, k0 ≤ k → ∃ d', deAt structs k (.struct fs) v = .ok d' ∧ DSame (.struct ds) d' := by
  obtain ⟨c0, c1, w1, -, h1, v, hv, ha, hu⟩ := C74_every_run b fm w args hc dv hdv hf n skip
  rw [hrun] at h1; cases h1
  refine ⟨v, hv, typed_alike hs hsc hT hTc hd ?_ (Alike.symm ha) hu⟩
  rw [ser_struct]
  refine ⟨args.default, hargs, ?_⟩
  rw [valueMapMacro_eq, Option.some.injEq] at hdv
  rw [← hdv, Value.newMap, insAll_eq_sets]

/-! ### A concrete case of C74: a struct with a `u16` and a list, in a format that only knows signed integers -/

def exFields : List (String × Ty) := [("port", .int .u16), ("hosts", .seq .string)]
def exStructData : List (String × Data) := [("port", .int .u16 ⟨8080, by decide⟩), ("hosts", .seq [.str "a", .str "b"])]
def exSignedCodec : Codec :=
  { parse := fun s => if s = "P" then .ok (.map [(.str "hosts", .seq [.str "a", .str "b"]), (.str "port", .int .i64 ⟨8080, by decide⟩)])
      else .error "syntax",
    print := fun _ => .ok "P" }
def exTypedArgs : MacroArgs :=
  { fileName := "f", default := [("port", .uInteger ⟨8080, by decide⟩), ("hosts", .array [.string "a", .string "b"])], env := some "APP_",
    layers := [⟨"one", [.path "/a", .path "/b"], none⟩, ⟨"two", [.path "/b"], some true⟩] }

theorem exCleanStart : CleanStart exB1 exFresh exTypedArgs where
  names := by decide
  uniqueKeys := by
    intro e he
    simp [exTypedArgs] at he
    rcases he with rfl | rfl <;> simp [UniqueKeys, UniqueKeysList]
  absent := by decide
  room := fun _ => rfl
  places := by decide
  env := by
    intro pre hpre
    cases hpre
    exact ⟨"APP_", (trimStr_iff _ _).1 (by decide), by decide, exPath_not_app⟩

theorem exFaithful (dv : Value) (h : valueMapMacro exTypedArgs.default = some dv) : FaithfulOn ⟨exSignedCodec, exSignedCodec⟩ dv := by
  cases h
  intro fmt hf text hp
  have hf : fmt = exSignedCodec := by rcases hf with h | h <;> exact h
  subst hf
  cases hp
  refine ⟨_, rfl, ?_⟩
  show Presents (.map [("port", .uInteger ⟨8080, by decide⟩), ("hosts", .array [.string "a", .string "b"])]) _
  refine .map [("hosts", .array [.string "a", .string "b"]), ("port", .uInteger ⟨8080, by decide⟩)] (List.Perm.swap _ _ _) rfl ?_ ?_
  · rintro (_ | _ | i) k x k' d h1 h2
    · simp at h1 h2; obtain ⟨rfl, rfl⟩ := h1; obtain ⟨rfl, rfl⟩ := h2; exact .str _
    · simp at h1 h2; obtain ⟨rfl, rfl⟩ := h1; obtain ⟨rfl, rfl⟩ := h2; exact .str _
    · simp at h1
  · rintro (_ | _ | i) k x k' d h1 h2
    · simp at h1 h2; obtain ⟨rfl, rfl⟩ := h1; obtain ⟨rfl, rfl⟩ := h2
      refine .array rfl ?_
      rintro (_ | _ | i) x d h1 h2
      · simp at h1 h2; subst h1; subst h2; exact .str _
      · simp at h1 h2; subst h1; subst h2; exact .str _
      · simp at h1
    · simp at h1 h2; obtain ⟨rfl, rfl⟩ := h1; obtain ⟨rfl, rfl⟩ := h2; exact .int rfl rfl
    · simp at h1

/-- The theorem on this case: on the tenth run, with the file on disk, the struct is read back. -/
example : ∃ c w' v, nthRun exB1 ⟨exSignedCodec, exSignedCodec⟩ exFresh exTypedArgs 10 = .ok (c, w') ∧
    c.buildValue w' false = .ok v ∧ ∃ k d', deAt (fun _ => []) k (.struct exFields) v = .ok d' ∧ DSame (.struct exStructData) d' := by
  obtain ⟨dv, hdv, -⟩ := C19_value_map exTypedArgs.default
  obtain ⟨c0, c, w', -, hrun, -⟩ := C74_every_run exB1 ⟨exSignedCodec, exSignedCodec⟩ exFresh exTypedArgs exCleanStart dv hdv
    (exFaithful dv hdv) 10 false
  obtain ⟨v, hv, k0, h⟩ := C74_typed_struct exB1 ⟨exSignedCodec, exSignedCodec⟩ exFresh exTypedArgs exCleanStart dv hdv (exFaithful dv hdv)
    (fun _ => []) (fun _ => .struct (by simp) (by simp)) (fun _ => .struct (by simp)) exFields
    (.struct (by decide) (by
      intro f hf
      simp [exFields] at hf
      rcases hf with rfl | rfl
      · exact .int ⟨by decide, by decide⟩
      · exact .seq .string))
    (.struct (by
      intro f hf
      simp [exFields] at hf
      rcases hf with rfl | rfl
      · exact .int _
      · exact .seq (.leaf (by simp))))
    exStructData
    (.struct rfl (by
      intro i f d hf hd
      match i with
      | 0 => cases hf; cases hd; exact .int _ _
      | 1 => cases hf; cases hd; exact .seq (by
          intro d hd
          simp at hd
          rcases hd with rfl | rfl <;> exact .string _)
      | i + 2 => cases hf))
    (.cons ⟨rfl, rfl⟩ (.cons ⟨rfl, rfl⟩ .nil)) 10 false c w' hrun
  obtain ⟨d', h1, h2⟩ := h k0 (Nat.le_refl _)
  exact ⟨c, w', v, hrun, hv, k0, d', h1, h2⟩

/-! ## C75 -/

theorem get_child (v : Value) (k : String) : v.get k = (child v (.key k)).getD .none := step_eq v (.key k)

/-- What a merge leaves under a key that held `a`, from an overlay that holds `v` there. -/
def overlay (a : Option Value) (v : Value) : Option Value :=
  match a with
  | none => some v
  | some x => if x.isMap = true ∧ v.isMap = true then some (x.merge v) else some v

theorem child_merge_key {a b : Value} (ha : a.isMap = true) (hu : UniqueKeys b) (k : String) :
    child (a.merge b) (.key k) = match child b (.key k) with
      | none => child a (.key k)
      | some y => overlay (child a (.key k)) y := by
  obtain ⟨l, rfl⟩ : ∃ l, a = .map l := (isMap_cases a).resolve_right (by rw [ha]; simp)
  rcases isMap_cases b with ⟨r, rfl⟩ | hb
  · rw [show (Value.map l).merge (.map r) = .map (mergeEntries l r) from by rw [Value.merge], child_key_map, child_key_map, child_key_map,
      hmGet_mergeEntries r l (uniqueKeys_map.1 hu).1 k]
    cases hmGet r k with
    | none => rfl
    | some y =>
      cases hmGet l k with
      | none => rfl
      | some x =>
        simp only [overlay]
        cases x.isMap <;> cases y.isMap <;> simp
  · have h1 : child b (.key k) = none := by cases b <;> first | rfl | cases hb
    have h2 : (Value.map l).merge b = .map l := by cases b <;> first | rfl | cases hb
    rw [h1, h2]

theorem child_fold {w : World} (k : String) : ∀ (ls : List (String × Layer)), (∀ e ∈ ls, Proper e.2) → ∀ a : Value, a.isMap = true →
    child ((readables w ls).foldl Value.merge a) (.key k) = (entriesAt w ls k).foldl overlay (child a (.key k)) := by
  intro ls
  induction ls with
  | nil => intro _ a _; rfl
  | cons e ls ih =>
    intro hp a ha
    have ih' := ih (fun e he => hp e (List.mem_cons_of_mem _ he))
    rw [readables, entriesAt, List.filterMap_cons, List.filterMap_cons]
    cases hr : e.2.readValue w with
    | error x => exact ih' a ha
    | ok x =>
      have hm : (a.merge x).isMap = true := by
        obtain ⟨l, rfl⟩ : ∃ l, a = .map l := (isMap_cases a).resolve_right (by rw [ha]; simp)
        cases x <;> rfl
      have := ih' (a.merge x) hm
      rw [readables, child_merge_key ha (hp e (by simp) w x hr) k, entriesAt] at this
      refine Eq.trans this ?_
      dsimp only
      cases child x (.key k) <;> rfl

theorem overlay_maps : ∀ (ms : List Value), (∀ m ∈ ms, m.isMap = true) → ∀ x, x.isMap = true →
    ms.foldl overlay (some x) = some (ms.foldl Value.merge x) := by
  intro ms
  induction ms with
  | nil => intro _ x _; rfl
  | cons m ms ih =>
    intro h x hx
    rw [List.foldl_cons, List.foldl_cons]
    have hm := h m (by simp)
    rw [show overlay (some x) m = some (x.merge m) from by simp [overlay, hx, hm]]
    refine ih (fun y hy => h y (by simp [hy])) _ ?_
    obtain ⟨l, rfl⟩ : ∃ l, x = .map l := (isMap_cases x).resolve_right (by rw [hx]; simp)
    cases m <;> rfl

theorem overlay_last (pre : List Value) (y : Value) (a : Option Value) (hy : y.isMap = false) :
    (pre ++ [y]).foldl overlay a = some y := by
  rw [List.foldl_append, List.foldl_cons, List.foldl_nil]
  cases pre.foldl overlay a with
  | none => rfl
  | some x => simp [overlay, hy]

theorem overlay_map_over (o : Option Value) (m : Value) (h : ∀ x, o = some x → x.isMap = false) : overlay o m = some m := by
  cases o with
  | none => rfl
  | some x => simp [overlay, h x rfl]

/-- **C75.** The built value read under one key. If no layer has the key, it is absent. If the last layer that has it holds no map there,
the entry is exactly that layer's. If the last layers that have it hold maps there (all of them, or all after the last that holds
something else), it is the merge of just these sections, in order: a section is layered on its own. -/
theorem C75_section (b : Build) (fm : Formats) (calls : List RegCall) (w : World) (skip : Bool) (v : Value)
    (h : (register b fm calls).buildValue w skip = .ok v) (hp : ∀ e ∈ firsts (offers b fm calls), Proper e.2) (k : String) :
    (entriesAt w (firsts (offers b fm calls)) k = [] → child v (.key k) = none) ∧
    (∀ pre y, entriesAt w (firsts (offers b fm calls)) k = pre ++ [y] → y.isMap = false → child v (.key k) = some y) ∧
    (∀ pre m ms, entriesAt w (firsts (offers b fm calls)) k = pre ++ m :: ms → m.isMap = true → (∀ x ∈ ms, x.isMap = true) →
      (∀ y, pre.getLast? = some y → y.isMap = false) → child v (.key k) = some (ms.foldl Value.merge m)) := by
  have key : child v (.key k) = (entriesAt w (firsts (offers b fm calls)) k).foldl overlay none := by
    rw [build_ok h, child_fold k _ hp Value.newMap rfl]; rfl
  refine ⟨fun e => by rw [key, e]; rfl, fun pre y e hy => by rw [key, e, overlay_last pre y _ hy], fun pre m ms e hm hms hpre => ?_⟩
  rw [key, e, List.foldl_append, List.foldl_cons]
  rw [overlay_map_over _ m ?_]
  · exact overlay_maps ms hms m hm
  · intro x hx
    rcases List.eq_nil_or_concat pre with rfl | ⟨p, y, rfl⟩
    · cases hx
    · have hy := hpre y (by simp)
      rw [List.concat_eq_append, overlay_last p y none hy] at hx
      cases hx; exact hy

/-- **C75.** A struct whose fields no layer holds a map for, read from the built value: it succeeds exactly if every field that some layer has
can be read from the last layer that has it and every other field is an `Option`; the results are those readings, and `None`. -/
theorem C75_typed_struct (b : Build) (fm : Formats) (calls : List RegCall) (w : World) (skip : Bool) (v : Value)
    (h : (register b fm calls).buildValue w skip = .ok v) (hp : ∀ e ∈ firsts (offers b fm calls), Proper e.2)
    (structs : Nat → List (String × Ty)) (k : Nat) (fs : List (String × Ty)) (hf : (fs.map Prod.fst).Nodup)
    (hflat : ∀ f ∈ fs, ∀ y ∈ entriesAt w (firsts (offers b fm calls)) f.1, y.isMap = false) (d : Data) :
    deAt structs k (.struct fs) v = .ok d ↔
    ∃ ds : List (String × Data), d = .struct ds ∧ ds.map Prod.fst = fs.map Prod.fst ∧
      ∀ (i : Nat) f nd, fs[i]? = some f → ds[i]? = some nd →
        match (entriesAt w (firsts (offers b fm calls)) f.1).getLast? with
        | some y => deAt structs k f.2 y = .ok nd.2
        | none => (∃ t, f.2 = .option t) ∧ nd.2 = .none := by
  have hvm := (C08_map b fm calls w skip v h).1
  have hvu : UniqueKeys v := by
    rw [build_ok h]
    have : ∀ (vs : List Value), (∀ x ∈ vs, UniqueKeys x) → ∀ a, UniqueKeys a → UniqueKeys (vs.foldl Value.merge a) := by
      intro vs
      induction vs with
      | nil => intro _ a ha; exact ha
      | cons x vs ih => intro hx a ha; exact ih (fun y hy => hx y (by simp [hy])) _ (uniqueKeys_merge ha (hx x (by simp)))
    apply this
    · intro x hx
      obtain ⟨e, he, hr⟩ := List.mem_filterMap.1 hx
      cases hrv : e.2.readValue w with
      | error _ => rw [hrv] at hr; cases hr
      | ok y => rw [hrv] at hr; cases hr; exact hp e he w _ hrv
    · simp [Value.newMap, UniqueKeys, UniqueKeysMap]
  rw [C39_struct structs k fs hf v hvu hvm]
  refine exists_congr fun ds => and_congr_right fun _ => and_congr_right fun _ =>
    forall_congr' fun i => forall_congr' fun f => forall_congr' fun nd => imp_congr_right fun hfi => imp_congr_right fun _ => ?_
  obtain ⟨c1, c2, -⟩ := C75_section b fm calls w skip v h hp f.1
  have hfl := hflat f (List.mem_of_getElem? hfi)
  rcases List.eq_nil_or_concat (entriesAt w (firsts (offers b fm calls)) f.1) with he | ⟨p, y, he⟩
  · rw [c1 he, he]
    simp
  · rw [List.concat_eq_append] at he
    rw [c2 p y he (hfl y (by rw [he]; simp)), he]
    simp

/-! ### A concrete case of C75 -/

def exLayered : List RegCall :=
  [.memory "d" (.map [("port", .integer ⟨80, by decide⟩), ("host", .string "a"), ("s", .map [("x", .boolean true), ("y", .none)])]),
   .memory "o" (.map [("port", .string "8080"), ("s", .map [("y", .boolean false)])])]

theorem exLayered_proper : ∀ e ∈ firsts (offers exB1 exFormats exLayered), Proper e.2 := by
  intro e he
  have : e = ("d", .memory (.map [("port", .integer ⟨80, by decide⟩), ("host", .string "a"),
      ("s", .map [("x", .boolean true), ("y", .none)])])) ∨
      e = ("o", .memory (.map [("port", .string "8080"), ("s", .map [("y", .boolean false)])])) := by
    simpa [exLayered, offers, firsts, RegCall.offer] using he
  rcases this with rfl | rfl <;> intro w v hv <;> cases hv <;> simp [UniqueKeys, UniqueKeysMap, UniqueKeysEntry]

/-- The port is the upper layer's text, read as a number; the host the lower layer's; the section is merged; a field nobody has is `None`. -/
example (w : World) : ∃ v, (register exB1 exFormats exLayered).buildValue w false = .ok v ∧
    child v (.key "s") = some ((Value.map [("x", .boolean true), ("y", .none)]).merge (.map [("y", .boolean false)])) ∧
    deAt (fun _ => []) 1 (.struct [("port", .int .u16), ("host", .string), ("user", .option .string)]) v =
      .ok (.struct [("port", .int .u16 ⟨8080, by decide⟩), ("host", .str "a"), ("user", .none)]) := by
  refine ⟨_, rfl, ?_, ?_⟩
  · exact (C75_section exB1 exFormats exLayered w false _ rfl exLayered_proper "s").2.2 [] _ [_] rfl rfl (by simp [Value.isMap]) (by simp)
  · refine (C75_typed_struct exB1 exFormats exLayered w false _ rfl exLayered_proper (fun _ => []) 1
      [("port", .int .u16), ("host", .string), ("user", .option .string)] (by decide) ?_ _).2 ⟨_, rfl, rfl, ?_⟩
    · intro f hf y hy
      simp at hf
      rcases hf with rfl | rfl | rfl <;> simp [exLayered, offers, firsts, RegCall.offer, entriesAt, Layer.readValue, child] at hy
      · rcases hy with rfl | rfl <;> rfl
      · subst hy; rfl
    · intro i f nd hf hd
      match i with
      | 0 => cases hf; cases hd; rfl
      | 1 => cases hf; cases hd; rfl
      | 2 => cases hf; cases hd; exact ⟨⟨_, rfl⟩, rfl⟩
      | i + 3 => cases hf

/-! ## C76 -/

/-- **C76.** A variable that lands on `k` decides `k`, if no later layer has that key: the built value holds its text there, whatever the
lower layers hold. Read as a type, it is the number the text spells, the truth value it names, the text itself; it is never a list, a tuple,
a map or a struct, so a variable cannot set a section. -/
theorem C76_env_typed (b : Build) (fm : Formats) (calls : List RegCall) (w : World) (skip : Bool) (v : Value)
    (h : (register b fm calls).buildValue w skip = .ok v) (hp : ∀ e ∈ firsts (offers b fm calls), Proper e.2)
    (lower upper : List (String × Layer)) (name pre P : String)
    (hlayers : firsts (offers b fm calls) = lower ++ (name, Layer.newEnvironment pre) :: upper) (hP : Trimmed pre P) (hne : P ≠ "")
    (k s : String) (hup : entriesAt w upper k = []) (before after : List (OsStr × OsStr)) (var : OsStr × OsStr)
    (henv : w.env = before ++ var :: after) (hl : Lands P var k) (hs : HasText var s)
    (hlast : ∀ a ∈ after, ¬ (Lands P a k ∧ ∃ t, HasText a t)) :
    v.get k = .string s ∧
    ∀ (structs : Nat → List (String × Ty)) (j : Nat),
      (∀ t n, Upto64 t → (deAt structs j (.int t) (v.get k) = .ok (.int t n) ↔ Spells t s n.1)) ∧
      (deAt structs j .bool (v.get k) = .ok (.bool true) ↔ EqIgnoreAsciiCase s "true") ∧
      (deAt structs j .bool (v.get k) = .ok (.bool false) ↔ EqIgnoreAsciiCase s "false") ∧
      deAt structs j .string (v.get k) = .ok (.str s) ∧
      (∀ T d, deAt structs j (.option T) (v.get k) = .ok d ↔ ∃ d', d = .some d' ∧ deAt structs j T (v.get k) = .ok d') ∧
      (∀ T d, deAt structs j (.seq T) (v.get k) ≠ .ok d) ∧ (∀ Ts d, deAt structs j (.tuple Ts) (v.get k) ≠ .ok d) ∧
      (∀ kt T d, deAt structs j (.map kt T) (v.get k) ≠ .ok d) ∧ (∀ fs d, deAt structs j (.struct fs) (v.get k) ≠ .ok d) := by
  have hget : v.get k = .string s := by
    obtain ⟨x, hx, hxm, -, hx4, -⟩ := C54_reads w pre P hP hne
    have hxk := hx4 k before var after s henv hl hs hlast
    have hc : child x (.key k) = some (.string s) := by
      have h1 := hxk.2
      rw [view_cons] at h1
      cases hch : child x (.key k) with
      | none => rw [hch] at h1; cases h1
      | some y =>
        have h2 := hxk.1
        rw [get_child, hch] at h2
        exact congrArg some h2
    have hlist : entriesAt w (firsts (offers b fm calls)) k = entriesAt w lower k ++ [.string s] := by
      rw [hlayers, entriesAt, List.filterMap_append, List.filterMap_cons]
      simp only [hx, hc]
      have := hup
      rw [entriesAt] at this
      rw [this]; rfl
    have := (C75_section b fm calls w skip v h hp k).2.1 _ _ hlist rfl
    rw [get_child, this]; rfl
  refine ⟨hget, fun structs j => ?_⟩
  rw [hget]
  refine ⟨fun t n ht => ?_, ?_, ?_, rfl, fun T d => ?_, ?_, ?_, ?_, ?_⟩
  · rw [deAt, de, bind_eq_ok]
    constructor
    · rintro ⟨m, h1, h2⟩
      cases h2
      rw [deInt_eq ht, ofExcept_ok] at h1
      exact ((C25_string_to_int t s n.1).2.1 n h1).1
    · intro hsp
      obtain ⟨r, h1, h2⟩ := (C25_string_to_int t s n.1).1 hsp (inRange_self n)
      cases Subtype.ext h2
      exact ⟨n, by rw [deInt_eq ht, ofExcept_ok]; exact h1, rfl⟩
  · obtain ⟨e1, e2, e3⟩ := C29_string_to_bool s
    rw [deAt, de]
    by_cases h1 : EqIgnoreAsciiCase s "true"
    · rw [e1 h1]; simp [h1, Outcome.ofExcept, bind_eq_ok]
    · by_cases h2 : EqIgnoreAsciiCase s "false"
      · rw [e2 h2]; simp [h1, Outcome.ofExcept, bind_eq_ok]
      · rw [e3 h1 h2]; simp [h1, Outcome.ofExcept, bind_eq_ok]
  · obtain ⟨e1, e2, e3⟩ := C29_string_to_bool s
    rw [deAt, de]
    by_cases h2 : EqIgnoreAsciiCase s "false"
    · rw [e2 h2]; simp [h2, Outcome.ofExcept, bind_eq_ok]
    · by_cases h1 : EqIgnoreAsciiCase s "true"
      · rw [e1 h1]; simp [h2, Outcome.ofExcept, bind_eq_ok]
      · rw [e3 h1 h2]; simp [h2, Outcome.ofExcept, bind_eq_ok]
  · show (de (refsAt structs j) T (.string s) >>= fun d => Outcome.ok (.some d)) = .ok d ↔ _
    simp only [bind_eq_ok, Outcome.ok.injEq]
    constructor
    · rintro ⟨x, h1, h2⟩; exact ⟨x, h2.symm, h1⟩
    · rintro ⟨x, h1, h2⟩; exact ⟨x, h2, h1.symm⟩
  · intro T d hd; cases hd
  · intro T d hd; cases hd
  · intro kt T d hd; cases hd
  · intro fs d hd; cases hd

/-- The theorem on a case: `APP_port = "8080"` over a default of 80, read as a `u16`. -/
example (v : Value) (h : (register exB1 exFormats [.memory "d" (.map [("port", .integer ⟨80, by decide⟩)]), .environment "env" "APP_"]).buildValue
      { exFresh with env := [(os "APP_port", os "8080")] } false = .ok v) :
    deAt (fun _ => []) 1 (.int .u16) (v.get "port") = .ok (.int .u16 ⟨8080, by decide⟩) := by
  refine ((C76_env_typed exB1 exFormats _ _ false v h ?_ [("d", .memory (.map [("port", .integer ⟨80, by decide⟩)]))] [] "env" "APP_" "APP_" rfl
    ((trimStr_iff _ _).1 (by decide)) (by decide) "port" "8080" rfl [] [] (os "APP_port", os "8080") rfl
    ⟨"APP_port", "APP_port", rfl, (trimStr_iff _ _).1 (by decide), by decide, 1, by decide, by decide⟩ rfl (by simp)).2 _ _).1 _ _
    ⟨by decide, by decide⟩ |>.2 ⟨['8', '0', '8', '0'], 8080, ⟨by simp, by decide, by decide⟩, Or.inl ⟨rfl, rfl⟩⟩
  intro e he
  have : e = ("d", .memory (.map [("port", .integer ⟨80, by decide⟩)])) ∨ e = ("env", Layer.newEnvironment "APP_") := by
    simpa [offers, firsts, RegCall.offer, Layer.newEnvironment] using he
  rcases this with rfl | rfl
  · intro w v hv; cases hv; simp [UniqueKeys, UniqueKeysMap, UniqueKeysEntry]
  · intro w v hv
    exact uniqueKeys_readEnv (by simpa only [Layer.newEnvironment, Layer.readValue] using hv)

/-! ## C77 -/

/-- The readings around a successful write to one file layer of a configuration of the crate's own layers. -/
theorem save_readings {b : Build} {fm : Formats} {calls : List RegCall} (hb : ∀ c ∈ calls, c.BuiltIn) {w w' : World}
    {lower upper : List (String × Layer)} {name : String} {cd : Codec} {path : OsStr}
    (hlayers : firsts (offers b fm calls) = lower ++ (name, .file (textHandler cd) path) :: upper)
    (hplaces : ∀ e ∈ lower ++ upper, ∀ h q, e.2 = .file h q → w.locate q ≠ w.locate path)
    {v : Value} {res : Except BakuninError Unit}
    (hw : (Layer.file (textHandler cd) path).writeValue w v = (res, w')) :
    ∀ e ∈ lower ++ upper, e.2.readValue w' = e.2.readValue w := by
  intro e he
  have hmem : e ∈ firsts (offers b fm calls) := by
    rw [hlayers]
    rcases List.mem_append.1 he with h | h
    · exact List.mem_append_left _ h
    · exact List.mem_append_right _ (List.mem_cons_of_mem _ h)
  obtain ⟨c, hc, ho⟩ := List.mem_filterMap.1 (mem_firsts hmem)
  have hw2 : ((Layer.newFile (textHandler cd) path).writeValue w v).2 = w' := by
    rw [show Layer.newFile (textHandler cd) path = .file (textHandler cd) path from rfl, hw]
  cases c with
  | layer => exact (hb _ hc).elim
  | memory n x => cases ho; have := (C57_others cd cd w path v).2.2 x; rw [hw2] at this; exact this
  | environment n pre => cases ho; have := (C57_others cd cd w path v).2.1 pre; rw [hw2] at this; exact this
  | file n q =>
    obtain ⟨cd', rfl, -⟩ := offer_file ho
    have := (C57_others cd cd' w path v).1 q (hplaces _ he _ _ rfl)
    rw [hw2] at this; exact this

theorem speaks_congr {w w' : World} {l : Layer} (h : l.readValue w' = l.readValue w) (p : Path) : Speaks w' l p ↔ Speaks w l p := by
  unfold Speaks; rw [h]

/-- Saving and building again, when the layer afterwards reads a value like `s` (which need not be the value that was written). -/
theorem save_stored (b : Build) (fm : Formats) (calls : List RegCall) (hb : ∀ c ∈ calls, c.BuiltIn)
    (hmem : ∀ c ∈ calls, ∀ n x, c = .memory n x → UniqueKeys x) (w w' : World)
    (lower upper : List (String × Layer)) (name : String) (cd : Codec) (path : OsStr)
    (hlayers : firsts (offers b fm calls) = lower ++ (name, .file (textHandler cd) path) :: upper)
    (hplaces : ∀ e ∈ lower ++ upper, ∀ h q, e.2 = .file h q → w.locate q ≠ w.locate path)
    (v0 v v' : Value) (hvm : v.isMap = true)
    (hok : (Layer.file (textHandler cd) path).writeValue w v0 = (.ok (), w'))
    (hv' : (Layer.file (textHandler cd) path).readValue w' = .ok v') (halike : Alike v v')
    (skip : Bool) (built : Value) (h1 : (register b fm calls).buildValue w skip = .ok built) :
    ∃ built', (register b fm calls).buildValue w' skip = .ok built' ∧
      (∀ p, ¬ Silent v p → (∀ e ∈ upper, ¬ Speaks w e.2 p) →
        (view v p = none ∧ view built' p = none) ∨ ∃ x y, view v p = some x ∧ view built' p = some y ∧ HeadAlike x y) ∧
      (∀ p, (∃ e ∈ upper, Speaks w e.2 p) → view built' p = view built p) ∧
      (∀ p, ¬ Speaks w (.file (textHandler cd) path) p → Silent v p → view built' p = view built p) := by
  have hothers := save_readings hb hlayers hplaces hok
  have hproper : ∀ e ∈ firsts (offers b fm calls), Proper e.2 := by
    intro e he
    obtain ⟨c, hc, ho⟩ := List.mem_filterMap.1 (mem_firsts he)
    exact C08_builtin_proper b fm c e (hb c hc) (hmem c hc) ho
  have hvm' : v'.isMap = true := by rw [← alike_isMap halike]; exact hvm
  -- it builds
  obtain ⟨built', h2⟩ : ∃ built', (register b fm calls).buildValue w' skip = .ok built' := by
    cases skip with
    | true => rw [buildValue_is (is_register b fm calls), buildList_true]; exact ⟨_, rfl⟩
    | false =>
      rw [buildValue_is (is_register b fm calls)] at h1 ⊢
      have hall := (((buildList_false w _ _).1 built).1 h1).1
      refine ⟨_, ((buildList_false w' _ _).1 _).2 ⟨fun e he => ?_, rfl⟩⟩
      rw [hlayers] at he
      rcases List.mem_append.1 he with hlo | hlo
      · rw [hothers e (List.mem_append_left _ hlo)]; exact hall e (by rw [hlayers]; exact he)
      · rcases List.mem_cons.1 hlo with rfl | hup
        · exact ⟨v', hv'⟩
        · rw [hothers e (List.mem_append_right _ hup)]; exact hall e (by rw [hlayers]; exact he)
  refine ⟨built', h2, ?_, ?_, ?_⟩
  · intro p hs hno
    have := C07_last_speaker b fm calls w' skip built' h2 hproper p lower _ upper v' hlayers hv' hvm'
      (fun h => hs (silent_alike (Alike.symm halike) h))
      (fun a ha => by rw [speaks_congr (hothers a (List.mem_append_right _ ha))]; exact hno a ha)
    rw [this]
    exact halike p
  · intro p ⟨e, he, hse⟩
    rcases C07_cases w upper p with hno | ⟨before, e1, after, x, hsplit, hx, hxm, hxs, hafter⟩
    · exact absurd hse (hno e he)
    · have hl2 : firsts (offers b fm calls) = (lower ++ (name, .file (textHandler cd) path) :: before) ++ e1 :: after := by
        rw [hlayers, hsplit]; simp
      rw [C07_last_speaker b fm calls w skip built h1 hproper p _ e1 after x hl2 hx hxm hxs hafter]
      refine C07_last_speaker b fm calls w' skip built' h2 hproper p _ e1 after x hl2 ?_ hxm hxs ?_
      · rw [hothers e1 (by rw [hsplit]; simp)]; exact hx
      · intro a ha
        rw [speaks_congr (hothers a (by rw [hsplit]; simp [ha]))]; exact hafter a ha
  · intro p hold hsil
    have hme : ¬ Speaks w' (.file (textHandler cd) path) p := by
      rintro ⟨x, hx, -, hxs⟩
      rw [hv'] at hx; cases hx
      exact hxs (silent_alike halike hsil)
    have hiff : ∀ e ∈ firsts (offers b fm calls), Speaks w' e.2 p ↔ Speaks w e.2 p := by
      intro e he
      rw [hlayers] at he
      rcases List.mem_append.1 he with hlo | hlo
      · exact speaks_congr (hothers e (List.mem_append_left _ hlo)) p
      · rcases List.mem_cons.1 hlo with rfl | hup
        · exact ⟨fun h => (hme h).elim, fun h => (hold h).elim⟩
        · exact speaks_congr (hothers e (List.mem_append_right _ hup)) p
    rcases C07_cases w (firsts (offers b fm calls)) p with hno | ⟨before, e1, after, x, hsplit, hx, hxm, hxs, hafter⟩
    · rw [C07_nobody_speaks b fm calls w skip built h1 hproper p hno,
        C07_nobody_speaks b fm calls w' skip built' h2 hproper p (fun e he => by rw [hiff e he]; exact hno e he)]
    · rw [C07_last_speaker b fm calls w skip built h1 hproper p _ e1 after x hsplit hx hxm hxs hafter]
      refine C07_last_speaker b fm calls w' skip built' h2 hproper p _ e1 after x hsplit ?_ hxm hxs ?_
      · have hin : e1 ∈ lower ++ upper := by
          have : e1 ∈ firsts (offers b fm calls) := by rw [hsplit]; simp
          rw [hlayers] at this
          rcases List.mem_append.1 this with hlo | hlo
          · exact List.mem_append_left _ hlo
          · rcases List.mem_cons.1 hlo with rfl | hup
            · exact absurd ⟨x, hx, hxm, hxs⟩ hold
            · exact List.mem_append_right _ hup
        rw [hothers e1 hin]; exact hx
      · intro a ha
        rw [hiff a (by rw [hsplit]; simp [ha])]; exact hafter a ha

/-- **C77.** Saving through a file layer and building again. After a successful `write_value` of a map on one file layer of a configuration
(no other file layer naming the same place, the format handing back a faithful presentation of what it printed), the configuration still
builds if it did, and the new built value shows: what was written, wherever it speaks and no later layer does (up to the kind of integers);
and exactly what the old one showed wherever a later layer speaks, or neither the old nor the new content of the file does. -/
theorem C77_save (b : Build) (fm : Formats) (calls : List RegCall) (hb : ∀ c ∈ calls, c.BuiltIn)
    (hmem : ∀ c ∈ calls, ∀ n x, c = .memory n x → UniqueKeys x) (w w' : World)
    (lower upper : List (String × Layer)) (name : String) (cd : Codec) (path : OsStr)
    (hlayers : firsts (offers b fm calls) = lower ++ (name, .file (textHandler cd) path) :: upper)
    (hplaces : ∀ e ∈ lower ++ upper, ∀ h q, e.2 = .file h q → w.locate q ≠ w.locate path)
    (v : Value) (hvm : v.isMap = true) (hvu : UniqueKeys v)
    (hok : (Layer.file (textHandler cd) path).writeValue w v = (.ok (), w'))
    (hread : ∀ bs code wr, w.disk (w.locate path) ≠ .file bs (some code) wr)
    (text : String) (doc : Doc) (hp : cd.print v.toData = .ok text) (hq : cd.parse text = .ok doc) (hd : Presents v doc)
    (skip : Bool) (built : Value) (h1 : (register b fm calls).buildValue w skip = .ok built) :
    ∃ built', (register b fm calls).buildValue w' skip = .ok built' ∧
      (∀ p, ¬ Silent v p → (∀ e ∈ upper, ¬ Speaks w e.2 p) →
        (view v p = none ∧ view built' p = none) ∨ ∃ x y, view v p = some x ∧ view built' p = some y ∧ HeadAlike x y) ∧
      (∀ p, (∃ e ∈ upper, Speaks w e.2 p) → view built' p = view built p) ∧
      (∀ p, ¬ Speaks w (.file (textHandler cd) path) p → Silent v p → view built' p = view built p) := by
  obtain ⟨v', hv', halike⟩ := C66_file cd w w' path v hvu text doc hok hread hp hq hd
  exact save_stored b fm calls hb hmem w w' lower upper name cd path hlayers hplaces v v v' hvm hok hv' halike skip built h1

/-- A failed write may have emptied the file or left part of the text, but never touches what the other layers read. -/
theorem C77_failed_save (b : Build) (fm : Formats) (calls : List RegCall) (hb : ∀ c ∈ calls, c.BuiltIn)
    (hmem : ∀ c ∈ calls, ∀ n x, c = .memory n x → UniqueKeys x) (w w' : World)
    (lower upper : List (String × Layer)) (name : String) (cd : Codec) (path : OsStr)
    (hlayers : firsts (offers b fm calls) = lower ++ (name, .file (textHandler cd) path) :: upper)
    (hplaces : ∀ e ∈ lower ++ upper, ∀ h q, e.2 = .file h q → w.locate q ≠ w.locate path)
    (v : Value) (res : Except BakuninError Unit) (hw : (Layer.file (textHandler cd) path).writeValue w v = (res, w'))
    (skip : Bool) (built built' : Value) (h1 : (register b fm calls).buildValue w skip = .ok built)
    (h2 : (register b fm calls).buildValue w' skip = .ok built') (p : Path) (hup : ∃ e ∈ upper, Speaks w e.2 p) :
    view built' p = view built p := by
  have hothers := save_readings hb hlayers hplaces hw
  have hproper : ∀ e ∈ firsts (offers b fm calls), Proper e.2 := by
    intro e he
    obtain ⟨c, hc, ho⟩ := List.mem_filterMap.1 (mem_firsts he)
    exact C08_builtin_proper b fm c e (hb c hc) (hmem c hc) ho
  obtain ⟨e, he, hse⟩ := hup
  rcases C07_cases w upper p with hno | ⟨before, e1, after, x, hsplit, hx, hxm, hxs, hafter⟩
  · exact absurd hse (hno e he)
  · have hl2 : firsts (offers b fm calls) = (lower ++ (name, .file (textHandler cd) path) :: before) ++ e1 :: after := by
      rw [hlayers, hsplit]; simp
    rw [C07_last_speaker b fm calls w skip built h1 hproper p _ e1 after x hl2 hx hxm hxs hafter]
    refine C07_last_speaker b fm calls w' skip built' h2 hproper p _ e1 after x hl2 ?_ hxm hxs ?_
    · rw [hothers e1 (by rw [hsplit]; simp)]; exact hx
    · intro a ha
      rw [speaks_congr (hothers a (by rw [hsplit]; simp [ha]))]; exact hafter a ha

/-! ### A concrete case of C77: the file said `hi`, the defaults say something about `d`, the environment about `k` -/

def exSaveCalls : List RegCall :=
  [.memory "default" (.map [("d", .boolean true), ("text", .string "x")]), .file "file" (os "/a.toml"), .environment "env" "APP_"]
def exSaveWorld : World := { exDisk with env := [(os "APP_k", os "w")] }

theorem exSave_builtin : ∀ c ∈ exSaveCalls, c.BuiltIn := by
  intro c hc
  simp only [exSaveCalls, List.mem_cons, List.not_mem_nil, or_false] at hc
  rcases hc with rfl | rfl | rfl <;> trivial

example : ∃ built w' built', (register exB1 exFormats exSaveCalls).buildValue exSaveWorld false = .ok built ∧
    (Layer.file (textHandler exCodec) (os "/a.toml")).writeValue exSaveWorld (.map [("text", .string "new")]) = (.ok (), w') ∧
    (register exB1 exFormats exSaveCalls).buildValue w' false = .ok built' ∧
    view built [.key "text"] = some (.string "hi") ∧ view built' [.key "text"] = some (.string "new") ∧
    view built' [.key "k"] = view built [.key "k"] ∧ view built' [.key "d"] = view built [.key "d"] := by
  obtain ⟨built', h, h1, h2, h3⟩ := C77_save exB1 exFormats exSaveCalls exSave_builtin
    (by
      intro c hc n x hx
      simp only [exSaveCalls, List.mem_cons, List.not_mem_nil, or_false] at hc
      rcases hc with rfl | rfl | rfl <;> cases hx
      simp [UniqueKeys, UniqueKeysMap, UniqueKeysEntry])
    exSaveWorld _ [("default", .memory (.map [("d", .boolean true), ("text", .string "x")]))] [("env", .environment "APP_")] "file" exCodec
    (os "/a.toml") rfl
    (by
      intro e he h q hq
      simp at he
      rcases he with rfl | rfl <;> cases hq)
    (.map [("text", .string "new")]) rfl (by simp [UniqueKeys, UniqueKeysMap, UniqueKeysEntry]) rfl
    (by intro bs code wr hc; cases hc) "new" (.map [(.str "text", .str "new")]) rfl rfl
    (.map [("text", .string "new")] (List.Perm.refl _) rfl
      (by
        rintro (_ | i) k x k' d g1 g2
        · simp at g1 g2; obtain ⟨rfl, rfl⟩ := g1; obtain ⟨rfl, rfl⟩ := g2; exact .str _
        · simp at g1)
      (by
        rintro (_ | i) k x k' d g1 g2
        · simp at g1 g2; obtain ⟨rfl, rfl⟩ := g1; obtain ⟨rfl, rfl⟩ := g2; exact .str _
        · simp at g1))
    false (.map [("d", .boolean true), ("text", .string "hi"), ("k", .string "w")]) rfl
  have hnew : ∀ k, k ≠ "text" → Silent (.map [("text", .string "new")]) [.key k] := by
    intro k hk
    refine ⟨[], k, [], rfl, ?_, ?_⟩
    · intro q hq; rw [List.prefix_nil] at hq; subst hq; rfl
    · simp [view, child, Ne.symm hk]
  refine ⟨_, _, built', rfl, rfl, h, rfl, ?_, ?_, ?_⟩
  · have a1 : ¬ Silent (.map [("text", .string "new")]) [.key "text"] := by
      rintro ⟨q, k, r, e, -, e2⟩
      rcases q with _ | ⟨s, q⟩
      · cases e; cases e2
      · simp at e
    have a2 : ∀ e ∈ [("env", Layer.environment "APP_")], ¬ Speaks exSaveWorld e.2 [.key "text"] := by
      intro e he
      simp at he
      subst he
      rintro ⟨x, hx, -, hns⟩
      cases hx
      exact hns ⟨[], "text", [], rfl, by intro q hq; rw [List.prefix_nil] at hq; subst hq; rfl, rfl⟩
    rcases h1 [.key "text"] a1 a2 with ⟨g, -⟩ | ⟨x, y, g1, g2, g3⟩
    · cases g
    · rw [g2]
      cases g1
      rcases g3 with rfl | ⟨n, g, -⟩
      · rfl
      · cases g
  · refine h2 _ ⟨("env", .environment "APP_"), by simp, .map [("k", .string "w")], rfl, rfl, ?_⟩
    rintro ⟨q, k, r, e, -, e2⟩
    rcases q with _ | ⟨s, q⟩
    · cases e; cases e2
    · simp at e
  · refine h3 _ ?_ (hnew "d" (by decide))
    rintro ⟨x, hx, -, hns⟩
    have : x = .map [("text", .string "hi")] := by cases hx; rfl
    subst this
    exact hns ⟨[], "d", [], rfl, by intro q hq; rw [List.prefix_nil] at hq; subst hq; rfl, rfl⟩

/-- **C74** for a single default: the port, as a `u16`, on the third run. -/
example : ∃ c w' v, nthRun exB1 ⟨exSignedCodec, exSignedCodec⟩ exFresh exTypedArgs 3 = .ok (c, w') ∧
    c.buildValue w' false = .ok v ∧ ∃ k d', deAt (fun _ => []) k (.int .u16) (v.get "port") = .ok d' ∧
      DSame (.int .u16 ⟨8080, by decide⟩) d' := by
  obtain ⟨dv, hdv, -⟩ := C19_value_map exTypedArgs.default
  obtain ⟨c0, c, w', -, hrun, -⟩ := C74_every_run exB1 ⟨exSignedCodec, exSignedCodec⟩ exFresh exTypedArgs exCleanStart dv hdv
    (exFaithful dv hdv) 3 false
  obtain ⟨v, hv, k0, h⟩ := C74_typed_default exB1 ⟨exSignedCodec, exSignedCodec⟩ exFresh exTypedArgs exCleanStart dv hdv (exFaithful dv hdv)
    (fun _ => []) (fun _ => .struct (by simp) (by simp)) (fun _ => .struct (by simp)) (.int .u16) (.int ⟨by decide, by decide⟩) (.int _)
    (.int .u16 ⟨8080, by decide⟩) (.int _ _) [] [("hosts", .array [.string "a", .string "b"])] "port" (.uInteger ⟨8080, by decide⟩) rfl
    (by simp) rfl 3 false c w' hrun
  obtain ⟨d', h1, h2⟩ := h k0 le_rfl
  exact ⟨c, w', v, hrun, hv, k0, d', h1, h2⟩

/-- **C77**, a save that fails half-way (the disk is full after one byte): what the environment sets is unaffected. -/
example (res : Except BakuninError Unit) (w' : World) (built built' : Value)
    (hw : (Layer.file (textHandler exCodec) (os "/a.toml")).writeValue { exSaveWorld with room := fun _ => some (1, 28) }
      (.map [("text", .string "new")]) = (res, w'))
    (h1 : (register exB1 exFormats exSaveCalls).buildValue { exSaveWorld with room := fun _ => some (1, 28) } true = .ok built)
    (h2 : (register exB1 exFormats exSaveCalls).buildValue w' true = .ok built') :
    view built' [.key "k"] = view built [.key "k"] := by
  refine C77_failed_save exB1 exFormats exSaveCalls exSave_builtin ?_ _ w'
    [("default", .memory (.map [("d", .boolean true), ("text", .string "x")]))] [("env", .environment "APP_")] "file" exCodec (os "/a.toml")
    rfl ?_ _ res hw true built built' h1 h2 _ ⟨("env", .environment "APP_"), by simp, .map [("k", .string "w")], rfl, rfl, ?_⟩
  · intro c hc n x hx
    simp only [exSaveCalls, List.mem_cons, List.not_mem_nil, or_false] at hc
    rcases hc with rfl | rfl | rfl <;> cases hx
    simp [UniqueKeys, UniqueKeysMap, UniqueKeysEntry]
  · intro e he h q hq
    simp at he
    rcases he with rfl | rfl <;> cases hq
  · intro hs
    cases view_of_silent hs
/-- There is such a failing save. -/
example : ∃ e w', (Layer.file (textHandler exCodec) (os "/a.toml")).writeValue { exSaveWorld with room := fun _ => some (1, 28) }
    (.map [("text", .string "new")]) = (.error e, w') := ⟨_, _, rfl⟩

end Verif.Props
