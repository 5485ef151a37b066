import Verif.Lemmas.Macro
/-!
# Properties of `create_config!` (C60–C63)
-/
namespace Verif.Props
open Spec

/-! ## C60 -/

/-- **C60.** `create_config!` always succeeds. The configuration it makes is that of registering the defaults as a memory layer `default`;
then, in the order written, a file layer for each layer that has a candidate (one of its directories resolves), at one of its candidates;
then, if asked for, the environment layer. Without `init: true` the world is unchanged and each file is the chosen one: the first
candidate that exists, else the first. In any case no file disappears, and a layer that had a file to begin with has one that exists. -/
theorem C60_order (b : Build) (fm : Formats) (w : World) (args : MacroArgs) :
    ∃ c w' dv, createConfig b fm w args = .ok (c, w') ∧ valueMapMacro args.default = some dv ∧
      ∃ files : List (LayerSpec × OsStr),
        c = register b fm ([.memory "default" dv] ++ files.map (fun x => .file x.1.name x.2) ++
          (args.env.map fun pre => .environment "environment" pre).toList) ∧
        files.map Prod.fst = args.layers.filter (fun l => !(layerCandidates b w args.fileName l).isEmpty) ∧
        (∀ x ∈ files, x.2 ∈ layerCandidates b w args.fileName x.1) ∧
        ((∀ l ∈ args.layers, l.init ≠ some true) →
          w' = w ∧ ∀ x ∈ files, chosen w (layerCandidates b w args.fileName x.1) = some x.2) ∧
        (∀ q, w.pathExists q = true → w'.pathExists q = true) ∧
        (∀ x ∈ files, ∀ q ∈ layerCandidates b w args.fileName x.1, w.pathExists q = true → w'.pathExists x.2 = true) := by
  obtain ⟨dv, h1, h2⟩ := createConfig_eq b fm w args
  obtain ⟨files, w', g1, g2, g3, g4, g5⟩ := foldl_mStep b fm args.fileName dv args.layers [.memory "default" dv] w
    (by intro c hc; simp at hc; subst hc; trivial)
  rw [g1] at h2
  refine ⟨_, w', dv, h2, h1, files, ?_, g3, g4, g5⟩
  dsimp only
  unfold register
  rw [← List.foldl_append]

/-- The layers of such a configuration: the defaults first; the files in order; the environment last, unless its name is taken. -/
theorem C60_default_first (b : Build) (fm : Formats) (dv : Value) (rest : List RegCall) :
    ∃ more, firsts (offers b fm ([.memory "default" dv] ++ rest)) = ("default", .memory dv) :: more ∧
      more = (firsts (offers b fm rest)).filter fun e => e.1 ≠ "default" := ⟨_, rfl, rfl⟩

/-- **C60.** The environment overrides everything else: if the prefix is not blank and no layer is called `environment`, the built value shows
at `k` the value of the last variable that lands on `k`. -/
theorem C60_env_wins (b : Build) (fm : Formats) (w : World) (args : MacroArgs) (pre P k s : String) (c : Config) (w' : World)
    (h : createConfig b fm w args = .ok (c, w')) (he : args.env = some pre) (hP : Trimmed pre P) (hne : P ≠ "")
    (hn : ∀ l ∈ args.layers, l.name ≠ "environment")
    (before after : List (OsStr × OsStr)) (var : OsStr × OsStr)
    (henv : w.env = before ++ var :: after) (hl : Lands P var k) (hs : HasText var s)
    (hlast : ∀ a ∈ after, ¬ (Lands P a k ∧ ∃ t, HasText a t)) :
    ∃ v, c.buildValue w' true = .ok v ∧ v.get k = .string s := by
  obtain ⟨dv, h1, h2⟩ := createConfig_eq b fm w args
  obtain ⟨files, w1, g1, g2, g3, g4, -⟩ := foldl_mStep b fm args.fileName dv args.layers [.memory "default" dv] w
    (by intro c hc; simp at hc; subst hc; trivial)
  rw [g1, h] at h2
  cases h2
  rw [he]
  have hreg : ((Option.map (fun pre => RegCall.environment "environment" pre) (some pre)).toList).foldl (RegCall.apply b fm)
      (register b fm ([.memory "default" dv] ++ files.map (fun x => .file x.1.name x.2))) =
      register b fm (([.memory "default" dv] ++ files.map (fun x => .file x.1.name x.2)) ++ [.environment "environment" pre]) := by
    unfold register; rw [← List.foldl_append]; rfl
  rw [hreg]
  generalize hcalls : ([RegCall.memory "default" dv] ++ files.map (fun x => RegCall.file x.1.name x.2)) = calls
  obtain ⟨v0, hv0, -⟩ := C09_skip b fm calls w1
  obtain ⟨x, hx, hxm, hxu, hx4, -⟩ := C54_reads w1 pre P hP hne
  have hadd := C14_add_last b fm calls (.environment "environment" pre) w1 true ("environment", Layer.newEnvironment pre) x v0 rfl ?_ hx hv0
  · refine ⟨_, hadd, ?_⟩
    have hview := (hx4 k before var after s (by rw [g2.env, henv]) hl hs hlast).2
    have := C01_nonmap_replaces v0 x (C08_map b fm calls w1 true v0 hv0).1 hxm hxu [k] (.string s) hview (by simp)
    rcases isMap_cases (v0.merge x) with ⟨m, hm⟩ | hm
    · rw [hm] at this ⊢
      rw [keys_cons, show keys [] = [] from rfl, view_key_map] at this
      cases hg : hmGet m k with
      | none => rw [hg] at this; simp at this
      | some y =>
        rw [hg] at this
        simp only [Option.bind_some, view_nil, Option.some.injEq] at this
        simp only [Value.get, hg]
        cases y <;> simp [head] at this
        simp [this]
    · have := (C08_map b fm _ w1 true _ hadd).1
      rw [hm] at this; cases this
  · intro a ha
    rw [← hcalls] at ha
    obtain ⟨cl, hcl, ho⟩ := List.mem_filterMap.1 ha
    rcases List.mem_append.1 hcl with hcl | hcl
    · simp at hcl; subst hcl; cases ho; show "default" ≠ "environment"; decide
    · obtain ⟨y, hy, rfl⟩ := List.mem_map.1 hcl
      obtain ⟨cd, rfl, -⟩ := offer_file ho
      have : y.1 ∈ args.layers := by
        have : y.1 ∈ files.map Prod.fst := List.mem_map_of_mem hy
        rw [g3] at this
        exact (List.mem_filter.1 this).1
      exact hn _ this

/-- **C60.** The defaults show where neither a file nor the environment speaks. -/
theorem C60_defaults_underneath (b : Build) (fm : Formats) (dv : Value) (rest : List RegCall) (w : World) (skip : Bool) (v : Value)
    (h : (register b fm ([.memory "default" dv] ++ rest)).buildValue w skip = .ok v) (hd : dv.isMap = true) (hu : UniqueKeys dv)
    (hp : ∀ e ∈ offers b fm rest, Proper e.2) (p : Path)
    (hno : ∀ e ∈ firsts (offers b fm ([.memory "default" dv] ++ rest)), e.1 ≠ "default" → ¬ Speaks w e.2 p) :
    view v p = view dv p := by
  obtain ⟨more, h1, h2⟩ := C60_default_first b fm dv rest
  have hmore : ∀ e ∈ more, e.1 ≠ "default" ∧ e ∈ offers b fm rest := by
    intro e he
    rw [h2] at he
    obtain ⟨h3, h4⟩ := List.mem_filter.1 he
    exact ⟨by simpa using h4, mem_firsts h3⟩
  have hproper : ∀ e ∈ firsts (offers b fm ([.memory "default" dv] ++ rest)), Proper e.2 := by
    intro e he
    rw [h1] at he
    rcases List.mem_cons.1 he with rfl | he
    · intro w v hv; cases hv; exact hu
    · exact hp e (hmore e he).2
  by_cases hs : Silent dv p
  · rw [C07_nobody_speaks b fm _ w skip v h hproper p]
    · rw [view_of_silent hs, if_neg]
      rintro rfl; exact not_silent_nil _ hs
    · intro e he
      by_cases hn : e.1 = "default"
      · rw [h1] at he
        rcases List.mem_cons.1 he with rfl | he'
        · rintro ⟨x, hx, -, hns⟩
          cases hx; exact hns hs
        · exact absurd hn (hmore e he').1
      · exact hno e he hn
  · refine C07_last_speaker b fm _ w skip v h hproper p [] ("default", .memory dv) more dv h1 rfl hd hs ?_
    intro a ha
    exact hno a (by rw [h1]; simp [ha]) (hmore a ha).1

/-! ## Examples -/

/-- Two directories, `/a` with a file `f.toml` and `/b` without. -/
def exMacroWorld : World :=
  { locate := fun p => if p = os "/a/f.toml" then 1 else if p = os "/b/f.toml" then 2 else 3,
    disk := fun s => if s = 1 then .file (utf8 "precious") none none else .absent none,
    room := fun _ => none, env := [(os "APP_k", os "v")], baseDirs := some ⟨os "/h", os "/h/c", os "/h/p"⟩, cwd := none }
def exArgs : MacroArgs :=
  { fileName := "f", default := [("text", .string "dflt")], env := some "APP_",
    layers := [⟨"one", [.path "/a", .path "/b"], none⟩, ⟨"two", [.path "/b"], some true⟩] }
/-- The same name twice. -/
def exArgsTwice : MacroArgs :=
  { fileName := "f", default := [("text", .string "dflt")], env := none,
    layers := [⟨"one", [.path "/a"], none⟩, ⟨"one", [.path "/b"], some true⟩] }

example : layerCandidates exB1 exMacroWorld "f" ⟨"one", [.path "/a", .path "/b", .workingDirectory], none⟩ =
    [os "/a/f.toml", os "/b/f.toml"] := by decide
example : ∃ c w', createConfig exB1 exFormats exMacroWorld exArgs = .ok (c, w') ∧ c.names = ["default", "one", "two", "environment"] ∧
    w'.disk 1 = .file (utf8 "precious") none none ∧ w'.disk 2 = .file (utf8 "dflt") none none := ⟨_, _, rfl, rfl, rfl, rfl⟩

/-- The hypotheses of `C60_env_wins` hold of this run. -/
example : ∃ c w' v, createConfig exB1 exFormats exMacroWorld exArgs = .ok (c, w') ∧ c.buildValue w' true = .ok v ∧ v.get "k" = .string "v" := by
  obtain ⟨c, w', hcw⟩ : ∃ c w', createConfig exB1 exFormats exMacroWorld exArgs = .ok (c, w') := ⟨_, _, rfl⟩
  obtain ⟨v, h⟩ := C60_env_wins exB1 exFormats exMacroWorld exArgs "APP_" "APP_" "k" "v" c w' hcw rfl
    ((trimStr_iff _ _).1 (by decide)) (by decide) (by decide) [] [] (os "APP_k", os "v") rfl
    ⟨"APP_k", "APP_k", rfl, (trimStr_iff _ _).1 (by decide), by decide, 1, by decide, by decide⟩ rfl (by simp)
  exact ⟨c, w', v, hcw, h⟩

/-! ## C61 -/

/-- **C61.** With pairwise distinct layer names, `create_config!` only creates files: where something existed before, it is unchanged,
byte for byte; and what is created is the first candidate of a layer marked `init: true` and holds the text of the defaults. -/
theorem C61_init_safe (b : Build) (fm : Formats) (w : World) (args : MacroArgs) (hn : (args.layers.map LayerSpec.name).Nodup)
    (c : Config) (w' : World) (h : createConfig b fm w args = .ok (c, w')) :
    ∃ dv, valueMapMacro args.default = some dv ∧ Created (Initialises b fm w args dv) w w' := by
  obtain ⟨dv, h1, h2⟩ := createConfig_eq b fm w args
  rw [h] at h2
  cases h2
  refine ⟨dv, h1, ?_⟩
  refine (foldl_distinct b fm args.fileName dv args.layers [.memory "default" dv] w hn
    (fun l _ => free_start b fm dv l.name)).1.mono ?_
  rintro s bs ⟨l, hl, e1, p, e2, e3, cd, text, e4, e5, e6, e7⟩
  exact ⟨l, hl, e1, p, e2, e3, cd, text, e4, e5, e6, e7⟩

/-- **C61.** In particular every path that existed still exists and reads the same. -/
theorem C61_existing_kept (b : Build) (fm : Formats) (w : World) (args : MacroArgs) (hn : (args.layers.map LayerSpec.name).Nodup)
    (c : Config) (w' : World) (h : createConfig b fm w args = .ok (c, w')) (p : OsStr) (he : w.pathExists p = true) :
    w'.disk (w'.locate p) = w.disk (w.locate p) := by
  obtain ⟨dv, -, hc⟩ := C61_init_safe b fm w args hn c w' h
  rw [hc.same.locate]
  rcases hc.2 (w.locate p) with h | ⟨h, -⟩
  · exact h
  · unfold World.pathExists at he; rw [h] at he; cases he

/-- **C61.** Without `init: true` nothing is written, whatever the names. -/
theorem C61_no_init (b : Build) (fm : Formats) (w : World) (args : MacroArgs) (hi : ∀ l ∈ args.layers, l.init ≠ some true)
    (c : Config) (w' : World) (h : createConfig b fm w args = .ok (c, w')) : w' = w := by
  obtain ⟨c2, w2, dv, h2, -, files, -, -, -, h3, -⟩ := C60_order b fm w args
  rw [h] at h2; cases h2
  exact (h3 hi).1

/-- **C61.** With a repeated name an existing file can be overwritten: the second `one` is at a file that does not exist, but the name
stands for the first, whose file does. -/
theorem C61_repeated_name_overwrites :
    ∃ (b : Build) (fm : Formats) (w : World) (args : MacroArgs) (c : Config) (w' : World) (p : OsStr),
      createConfig b fm w args = .ok (c, w') ∧ w.disk (w.locate p) = .file (utf8 "precious") none none ∧
      w'.disk (w'.locate p) = .file (utf8 "dflt") none none ∧ ∀ l ∈ args.layers, l.init = some true → p ∉ layerCandidates b w args.fileName l :=
  ⟨exB1, exFormats, exMacroWorld, exArgsTwice, _, _, os "/a/f.toml", rfl, rfl, rfl, by decide⟩

example : (exArgs.layers.map LayerSpec.name).Nodup := by decide

/-! ## C62 -/

/-- **C62.** A second run, with the same arguments, in the world that the first run left, changes nothing more on disk. -/
theorem C62_second_run (b : Build) (fm : Formats) (w : World) (args : MacroArgs) (hn : (args.layers.map LayerSpec.name).Nodup)
    (c c2 : Config) (w' w'' : World) (h : createConfig b fm w args = .ok (c, w'))
    (h2 : createConfig b fm w' args = .ok (c2, w'')) : w'' = w' := by
  obtain ⟨dv, h1, e1⟩ := createConfig_eq b fm w args
  obtain ⟨dv', h1', e2⟩ := createConfig_eq b fm w' args
  rw [h1] at h1'; cases h1'
  rw [h] at e1
  rw [h2] at e2
  simp only [Outcome.ok.injEq, Prod.mk.injEq] at e1 e2
  rw [e2.2]
  apply foldl_stuck b fm args.fileName dv args.layers _ _ hn (fun l _ => free_start b fm dv l.name)
  intro l hl hg
  have := (foldl_distinct b fm args.fileName dv args.layers [.memory "default" dv] w hn
    (fun l _ => free_start b fm dv l.name)).2 l hl hg
  rw [e1.2]; exact this

theorem readEnv_nothing {w : World} {pre P : String} (hP : Trimmed pre P) (hne : P ≠ "")
    (h : ∀ a ∈ w.env, ¬ ∃ k s, Lands P a k ∧ HasText a s) : (Layer.newEnvironment pre).readValue w = .ok (.map []) := by
  have ht : trimStr pre = P := (trimStr_iff _ _).2 hP
  simp only [Layer.newEnvironment, Layer.readValue, Layer.readEnv, ht]
  rw [if_neg (fun e => hne (String.isEmpty_iff.1 e))]
  congr 2
  generalize w.env = l at h
  induction l with
  | nil => rfl
  | cons a l ih =>
    rw [List.foldl_cons, (envStep_spec P hne [] a).2 (h a (by simp))]
    exact ih (fun x hx => h x (by simp [hx]))

theorem fold_same_defaults {dv : Value} (hd : dv.isMap = true) (vs : List Value) : ∀ v : Value, Same v dv →
    UniqueKeys v → (∀ x ∈ vs, x = .map [] ∨ (Same x dv ∧ UniqueKeys x)) → Same (vs.foldl Value.merge v) dv := by
  induction vs with
  | nil => intro v h _ _; exact h
  | cons x vs ih =>
    intro v h hvu hx
    rw [List.foldl_cons]
    apply ih
    · rcases hx x (by simp) with rfl | ⟨hs, hxu⟩
      · rw [C02_merge_empty]; exact h
      · intro p
        have hvm : v.isMap = true := by rw [same_isMap h]; exact hd
        have hxm : x.isMap = true := by rw [same_isMap hs]; exact hd
        by_cases hsil : Silent x p
        · rw [(view_merge' hvm hxm hxu p).1 hsil]; exact h p
        · rw [(view_merge' hvm hxm hxu p).2 hsil]; exact hs p
    · rcases hx x (by simp) with rfl | ⟨hs, hxu⟩
      · rw [C02_merge_empty]; exact hvu
      · exact uniqueKeys_merge hvu hxu
    · exact fun y hy => hx y (by simp [hy])

/-- **C62.** If no candidate file exists, no variable lands anywhere, the disk takes whole files, and the enabled formats read the text they
print for the defaults back as the defaults, then after `create_config!` the built value is the defaults (with or without `init`, whatever the OS
refuses to create). Two candidates with different extensions must not name one place. -/
theorem C62_fresh_defaults (b : Build) (fm : Formats) (w : World) (args : MacroArgs) (hn : (args.layers.map LayerSpec.name).Nodup)
    (c : Config) (w' : World) (h : createConfig b fm w args = .ok (c, w')) (skip : Bool)
    (hd : ∀ e ∈ args.default, UniqueKeys e.2)
    (hfresh : ∀ l ∈ args.layers, ∀ p ∈ layerCandidates b w args.fileName l, w.pathExists p = false)
    (hroom : ∀ s, w.room s = none)
    (hplaces : ∀ l ∈ args.layers, ∀ l' ∈ args.layers, ∀ p ∈ layerCandidates b w args.fileName l,
      ∀ q ∈ layerCandidates b w args.fileName l', w.locate p = w.locate q → pathExtension p = pathExtension q)
    (henv : ∀ pre, args.env = some pre → ∃ P, Trimmed pre P ∧ P ≠ "" ∧ ∀ a ∈ w.env, ¬ ∃ k s, Lands P a k ∧ HasText a s)
    (hfmt : ∀ dv, valueMapMacro args.default = some dv → ∀ fmt text, (fmt = fm.toml ∨ fmt = fm.json) →
      fmt.print dv.toData = .ok text → ∃ doc v, fmt.parse text = .ok doc ∧ visit doc = .ok v ∧ Same v dv) :
    ∃ dv v, valueMapMacro args.default = some dv ∧ c.buildValue w' skip = .ok v ∧ Same v dv := by
  obtain ⟨dv, hdv, hcreated⟩ := C61_init_safe b fm w args hn c w' h
  obtain ⟨c2, w2, dv2, e1, e2, files, e3, e4, e5, -⟩ := C60_order b fm w args
  rw [h] at e1; cases e1
  rw [hdv] at e2; cases e2
  have hdm : dv.isMap = true := by
    obtain ⟨x, hx, hxm, -⟩ := C19_value_map args.default
    rw [hdv] at hx; cases hx; exact hxm
  have hdu : UniqueKeys dv := (C22_macros args.default hd [] (by simp)).1 dv hdv
  refine ⟨dv, ?_⟩
  -- what the files hold
  have hfiles : ∀ x ∈ files, ∀ e, (RegCall.file x.1.name x.2).offer b fm = some e →
      ∃ y, e.2.readValue w' = .ok y ∧ (y = .map [] ∨ (Same y dv ∧ UniqueKeys y)) := by
    intro x hx e ho
    obtain ⟨cd, rfl, hcd⟩ := offer_file ho
    have hxl : x.1 ∈ args.layers := by
      have : x.1 ∈ files.map Prod.fst := List.mem_map_of_mem hx
      rw [e4] at this; exact (List.mem_filter.1 this).1
    have hxp := e5 x hx
    have habs := hfresh _ hxl _ hxp
    rcases hcreated.2 (w.locate x.2) with hsame | ⟨-, bytes, ⟨l, hl, hi, p, hp, hs, fmt, text, hf, hprint, -, hall⟩, hfile⟩
    · refine ⟨.map [], C56_missing _ w' x.2 ?_, Or.inl rfl⟩
      have : w'.disk (w'.locate x.2) = w.disk (w.locate x.2) := by rw [hcreated.same.locate]; exact hsame
      rw [pathExists_congr this]; exact habs
    · have hext := hplaces _ hxl _ hl _ hxp _ (List.mem_of_mem_head? hp) hs
      have hcd' : cd = fmt := TextFmt.unique (p := x.2) (q := p) hcd hf hext
      subst hcd'
      have hb : bytes = utf8 text := hall (hroom _)
      subst hb
      obtain ⟨doc, v, hparse, hvisit, hsame⟩ := hfmt dv hdv cd text
        (hf.elim (fun h => Or.inl h.2.2) (fun h => Or.inr h.2.2)) hprint
      have hd' : w'.disk (w'.locate x.2) = .file (utf8 text) none none := by rw [hcreated.same.locate]; exact hfile
      refine ⟨v, (C56_content cd w' x.2 (read_text hd').2 v).2 ⟨text, doc, none, hd', hparse, hvisit⟩, Or.inr ⟨hsame, ?_⟩⟩
      exact uniqueKeys_visit doc v hvisit
  -- every layer
  have hall : ∀ e ∈ firsts (offers b fm ([.memory "default" dv] ++ files.map (fun x => .file x.1.name x.2) ++
      (args.env.map fun pre => .environment "environment" pre).toList)),
      ∃ y, e.2.readValue w' = .ok y ∧ (y = .map [] ∨ (Same y dv ∧ UniqueKeys y)) := by
    intro e he
    obtain ⟨call, hcall, ho⟩ := List.mem_filterMap.1 (mem_firsts he)
    rcases List.mem_append.1 hcall with hcall | hcall
    · rcases List.mem_append.1 hcall with hcall | hcall
      · simp at hcall; subst hcall; cases ho
        exact ⟨dv, rfl, Or.inr ⟨Same.refl dv, hdu⟩⟩
      · obtain ⟨x, hx, rfl⟩ := List.mem_map.1 hcall
        exact hfiles x hx e ho
    · cases hpre : args.env with
      | none => rw [hpre] at hcall; cases hcall
      | some pre =>
        rw [hpre] at hcall
        simp at hcall; subst hcall; cases ho
        obtain ⟨P, hP, hne, hno⟩ := henv pre hpre
        refine ⟨.map [], readEnv_nothing hP hne ?_, Or.inl rfl⟩
        rw [hcreated.same.env]; exact hno
  rw [e3]
  refine ⟨(readables w' (firsts (offers b fm ([.memory "default" dv] ++ files.map (fun x => .file x.1.name x.2) ++
      (args.env.map fun pre => .environment "environment" pre).toList)))).foldl Value.merge Value.newMap, hdv, ?_, ?_⟩
  · rw [buildValue_is (is_register b fm _)]
    cases skip with
    | true => rw [buildList_true]
    | false =>
      rw [((buildList_false w' _ _).1 _).2]
      exact ⟨fun e he => by obtain ⟨y, hy, -⟩ := hall e he; exact ⟨y, hy⟩, rfl⟩
  · have hfirst : ∃ more, readables w' (firsts (offers b fm ([.memory "default" dv] ++ files.map (fun x => .file x.1.name x.2) ++
        (args.env.map fun pre => .environment "environment" pre).toList))) = dv :: more := ⟨_, rfl⟩
    obtain ⟨more, hmore⟩ := hfirst
    have hin : ∀ x ∈ readables w' (firsts (offers b fm ([.memory "default" dv] ++ files.map (fun x => .file x.1.name x.2) ++
        (args.env.map fun pre => .environment "environment" pre).toList))), x = .map [] ∨ (Same x dv ∧ UniqueKeys x) := by
      intro x hx
      obtain ⟨e, he, hr⟩ := List.mem_filterMap.1 hx
      obtain ⟨y, hy, hyy⟩ := hall e he
      rw [hy] at hr; cases hr; exact hyy
    rw [hmore] at hin ⊢
    rw [List.foldl_cons]
    apply fold_same_defaults hdm
    · exact C02_empty_merge dv hdm hdu
    · exact uniqueKeys_merge (uniqueKeys_map.2 ⟨List.nodup_nil, by simp⟩) hdu
    · exact fun y hy => hin y (by simp [hy])

/-- The example world before anything has been written. -/
def exFresh : World := { exMacroWorld with disk := fun _ => .absent none, env := [(os "PATH", os "/bin")] }

theorem exPath_not_app : ∀ a ∈ exFresh.env, ¬ ∃ k s, Lands "APP_" a k ∧ HasText a s := by
  intro a ha
  simp only [exFresh, List.mem_singleton] at ha
  subst ha
  rintro ⟨k, s, ⟨name, t, h1, h2, -, n, hn, h3⟩, -⟩
  have hname : name = "PATH" := os_inj h1.symm
  subst hname
  have ht : t = "PATH" := by
    have h4 := (trimStr_iff _ _).2 h2
    rw [← h4]; decide
  subst ht
  obtain ⟨n, rfl⟩ := Nat.exists_eq_succ_of_ne_zero (by omega : n ≠ 0)
  rw [times, List.replicate_succ, List.flatten_cons, List.append_assoc] at h3
  have := congrArg (fun l => l.head?) h3
  revert this
  simp

/-- The hypotheses of `C62_fresh_defaults` hold of a run that does write a file. -/
example : ∃ c w', createConfig exB1 exFormats exFresh exArgs = .ok (c, w') ∧ w'.disk 2 = .file (utf8 "dflt") none none ∧
    ∃ dv v, valueMapMacro exArgs.default = some dv ∧ c.buildValue w' false = .ok v ∧ Same v dv := by
  refine ⟨_, _, rfl, rfl, ?_⟩
  refine C62_fresh_defaults exB1 exFormats exFresh exArgs (by decide) _ _ rfl false ?_ (by decide) (fun _ => rfl) (by decide) ?_ ?_
  · intro e he
    simp [exArgs] at he; subst he; simp [UniqueKeys]
  · intro pre hpre
    cases hpre
    exact ⟨"APP_", (trimStr_iff _ _).1 (by decide), by decide, exPath_not_app⟩
  · intro dv hdv fmt text hf hp
    cases hdv
    have hf : fmt = exCodec := by rcases hf with h | h <;> exact h
    subst hf
    cases hp
    exact ⟨_, _, rfl, rfl, Same.refl _⟩

/-! ## C63 -/

/-- Without interference the raced form is the code as modelled. -/
theorem initLayerRaced_id (w : World) (c : Config) (added : Bool) (path : OsStr) (l : LayerSpec) (dv : Value) :
    initLayerRaced id w c added path l dv = initLayer w c added path l dv := rfl

/-- **C63.** If the file exists when the path is looked at, `init` writes nothing, whatever the others do afterwards. -/
theorem C63_exists_at_check (between : World → World) (w : World) (c : Config) (added : Bool) (path : OsStr) (l : LayerSpec) (dv : Value)
    (h : w.pathExists path = true) : initLayerRaced between w c added path l dv = between w := by
  unfold initLayerRaced
  cases l.init with
  | none => rfl
  | some flag => simp [h]

/-- **C63.** If it does not, and another process creates the file between the look and the write, then its content, whatever it is, is replaced
by the text of the defaults. -/
theorem C63_lost (between : World → World) (w : World) (c : Config) (path : OsStr) (l : LayerSpec) (dv : Value) (cd : Codec) (text : String)
    (theirs : List UInt8) (hi : l.init = some true) (hm : w.pathExists path = false)
    (hg : c.getLayer l.name = some (.file (textHandler cd) path)) (hp : cd.print dv.toData = .ok text)
    (hb : (between w).disk ((between w).locate path) = .file theirs none none)
    (hr : (between w).room ((between w).locate path) = none) :
    (initLayerRaced between w c true path l dv).disk ((between w).locate path) = .file (utf8 text) none none := by
  unfold initLayerRaced
  rw [hi]
  simp only [hm, hg, Bool.not_false, Bool.and_true, if_true]
  simp only [Layer.writeValue, textHandler, hp]
  generalize between w = u at *
  rcases fsWrite_cases u path text with ⟨e, g1, g2⟩ | ⟨n, code, w1, g1, g2, g3, g4⟩ | ⟨w1, g1, g2, g3⟩
  · unfold World.openTrunc at g2; rw [hb] at g2; cases g2
  · rw [hr] at g2; cases g2
  · rw [g3]
    obtain ⟨-, r, hd, hcase⟩ := onlyAt_open g1
    rcases hcase with ⟨ha, -⟩ | ⟨bs, ha⟩
    · rw [hb] at ha; cases ha
    · rw [hb] at ha; cases ha
      rw [append_file hd]; rfl

/-- **C63.** The hypotheses of `C63_lost` on a concrete run: the second layer of the example, with a process that creates `/b/f.toml`. -/
theorem C63_lost_witness : ∃ between c w', createConfig exB1 exFormats exMacroWorld { exArgs with layers := [⟨"two", [.path "/b"], none⟩] } = .ok (c, exMacroWorld) ∧
    w' = initLayerRaced between exMacroWorld c true (os "/b/f.toml") ⟨"two", [.path "/b"], some true⟩ (.map [("text", .string "dflt")]) ∧
    (between exMacroWorld).disk 2 = .file (utf8 "theirs") none none ∧ w'.disk 2 = .file (utf8 "dflt") none none :=
  ⟨fun w => w.put 2 (.file (utf8 "theirs") none none), _, _, rfl, rfl, rfl, rfl⟩

/-! ## C67 -/

/-- **C67.** A layer marked `init: true` (not called `default`, names pairwise distinct) really is initialised: unless the format cannot
print the defaults or the OS refuses to create the first candidate, some candidate of the layer exists afterwards; and if it did not
before, it holds the defaults' text as described by `Initialises`. -/
theorem C67_init_creates (b : Build) (fm : Formats) (w : World) (args : MacroArgs) (hn : (args.layers.map LayerSpec.name).Nodup)
    (c : Config) (w' : World) (h : createConfig b fm w args = .ok (c, w')) (dv : Value) (hdv : valueMapMacro args.default = some dv)
    (l : LayerSpec) (hl : l ∈ args.layers) (hi : l.init = some true) (hname : l.name ≠ "default")
    (p : OsStr) (hp : (layerCandidates b w args.fileName l).head? = some p) (fmt : Codec)
    (hf : (pathExtension p = some (os "toml") ∧ b.toml = true ∧ fmt = fm.toml) ∨
      (pathExtension p = some (os "json") ∧ b.json = true ∧ fmt = fm.json))
    (text : String) (hprint : fmt.print dv.toData = .ok text) (hcreate : ∀ code, w.disk (w.locate p) ≠ .absent (some code)) :
    ∃ q ∈ layerCandidates b w args.fileName l, w'.pathExists q = true ∧
      (w.pathExists q = false → ∃ bytes, Initialises b fm w args dv (w.locate q) bytes ∧
        w'.disk (w.locate q) = .file bytes none none) := by
  obtain ⟨dv', h1', hc⟩ := C61_init_safe b fm w args hn c w' h
  rw [hdv] at h1'; cases h1'
  have hstuck : Stuck b fm args.fileName dv w' l := by
    obtain ⟨dv', h1, e1⟩ := createConfig_eq b fm w args
    rw [hdv] at h1; cases h1
    rw [h] at e1
    simp only [Outcome.ok.injEq, Prod.mk.injEq] at e1
    rw [e1.2]
    refine (foldl_distinct b fm args.fileName dv args.layers [.memory "default" dv] w hn
      (fun l _ => free_start b fm dv l.name)).2 l hl ?_
    rw [(C11_first_wins b fm _ l.name).1]
    simp [offers, RegCall.offer, List.find?_cons, Ne.symm hname]
  have key : ∃ q ∈ layerCandidates b w args.fileName l, w'.pathExists q = true := by
    apply Classical.byContradiction
    intro hno
    have hall : ∀ q ∈ layerCandidates b w' args.fileName l, w'.pathExists q = false := by
      intro q hq
      rw [hc.same.candidates] at hq
      cases he : w'.pathExists q with
      | false => rfl
      | true => exact absurd ⟨q, hq, he⟩ hno
    have hp' : (layerCandidates b w' args.fileName l).head? = some p := by rw [hc.same.candidates]; exact hp
    have hpm := List.mem_of_mem_head? hp'
    rcases hstuck p fmt (chosen_of_missing hp' hall) hi hf with h | ⟨m, h⟩ | ⟨code, h⟩
    · rw [hall p hpm] at h; cases h
    · rw [hprint] at h; cases h
    · rw [(hc.missing (hall p hpm)).2] at h; exact hcreate code h
  obtain ⟨q, hq, he⟩ := key
  refine ⟨q, hq, he, fun hm => ?_⟩
  rcases hc.2 (w.locate q) with hsame | ⟨-, bytes, hmade, hfile⟩
  · unfold World.pathExists at he hm
    rw [hc.same.locate, hsame] at he
    rw [he] at hm; cases hm
  · exact ⟨bytes, hmade, hfile⟩

/-- **C67.** If moreover no candidate of the layer existed, no other `init: true` layer starts at the place of one of them and the disk has
room, the file at the first candidate then holds exactly the text the format prints for the defaults, and no other candidate was created
at another place. -/
theorem C67_init_exact (b : Build) (fm : Formats) (w : World) (args : MacroArgs) (hn : (args.layers.map LayerSpec.name).Nodup)
    (c : Config) (w' : World) (h : createConfig b fm w args = .ok (c, w')) (dv : Value) (hdv : valueMapMacro args.default = some dv)
    (l : LayerSpec) (hl : l ∈ args.layers) (hi : l.init = some true) (hname : l.name ≠ "default")
    (p : OsStr) (hp : (layerCandidates b w args.fileName l).head? = some p) (fmt : Codec)
    (hf : (pathExtension p = some (os "toml") ∧ b.toml = true ∧ fmt = fm.toml) ∨
      (pathExtension p = some (os "json") ∧ b.json = true ∧ fmt = fm.json))
    (text : String) (hprint : fmt.print dv.toData = .ok text) (hcreate : ∀ code, w.disk (w.locate p) ≠ .absent (some code))
    (hfresh : ∀ q ∈ layerCandidates b w args.fileName l, w.pathExists q = false)
    (hroom : w.room (w.locate p) = none)
    (hothers : ∀ l' ∈ args.layers, l' ≠ l → l'.init = some true → ∀ p', (layerCandidates b w args.fileName l').head? = some p' →
      ∀ q ∈ layerCandidates b w args.fileName l, w.locate p' ≠ w.locate q) :
    w'.disk (w'.locate p) = .file (utf8 text) none none ∧
    ∀ q ∈ layerCandidates b w args.fileName l, w.locate q ≠ w.locate p → w'.pathExists q = false := by
  have own : ∀ q ∈ layerCandidates b w args.fileName l, ∀ bytes, Initialises b fm w args dv (w.locate q) bytes →
      w.locate q = w.locate p ∧ bytes = utf8 text := by
    rintro q hq bytes ⟨l', hl', hi', p', hp', hs, fmt', text', hf', hprint', -, hall⟩
    by_cases hll : l' = l
    · subst hll
      rw [hp] at hp'; cases hp'
      have : fmt' = fmt := TextFmt.unique (p := p) (q := p) hf' hf rfl
      subst this
      rw [hprint] at hprint'; cases hprint'
      exact ⟨hs, hall (by rw [hs]; exact hroom)⟩
    · exact absurd hs.symm (hothers l' hl' hll hi' p' hp' q hq)
  obtain ⟨q, hq, -, hq2⟩ := C67_init_creates b fm w args hn c w' h dv hdv l hl hi hname p hp fmt hf text hprint hcreate
  obtain ⟨bytes, hm, hfile⟩ := hq2 (hfresh q hq)
  obtain ⟨dv', h1', hc⟩ := C61_init_safe b fm w args hn c w' h
  rw [hdv] at h1'; cases h1'
  obtain ⟨e1, rfl⟩ := own q hq bytes hm
  constructor
  · rw [hc.same.locate, ← e1]; exact hfile
  · intro r hr hne
    rcases hc.2 (w.locate r) with hsame | ⟨-, bytes, hmade, -⟩
    · have := hfresh r hr
      unfold World.pathExists at this ⊢
      rw [hc.same.locate, hsame]; exact this
    · exact absurd (own r hr bytes hmade).1 hne

/-- The hypotheses of `C67_init_exact` hold of the second layer of the example. -/
example : ∃ c w', createConfig exB1 exFormats exMacroWorld exArgs = .ok (c, w') ∧
    w'.disk (w'.locate (os "/b/f.toml")) = .file (utf8 "dflt") none none := by
  obtain ⟨c, w', hcw⟩ : ∃ c w', createConfig exB1 exFormats exMacroWorld exArgs = .ok (c, w') := ⟨_, _, rfl⟩
  refine ⟨c, w', hcw, ?_⟩
  refine (C67_init_exact exB1 exFormats exMacroWorld exArgs (by decide) c w' hcw _ rfl ⟨"two", [.path "/b"], some true⟩ (by simp [exArgs]) rfl
    (by decide) (os "/b/f.toml") (by decide) exCodec (Or.inl ⟨by decide, rfl, rfl⟩) "dflt" rfl ?_ (by decide) rfl ?_).1
  · intro code h
    have : exMacroWorld.disk (exMacroWorld.locate (os "/b/f.toml")) = .absent none := by decide
    rw [this] at h; cases h
  · intro l' hl' hne hi'
    simp [exArgs] at hl'
    rcases hl' with rfl | rfl
    · cases hi'
    · exact absurd rfl hne

/-! ## The theorems of this file at work on the example run -/

/-- **C60**: the two layers both have candidates; the file of the layer `one` is one of its candidates. -/
example : ∃ c w' dv, createConfig exB1 exFormats exMacroWorld exArgs = .ok (c, w') ∧ valueMapMacro exArgs.default = some dv ∧
    ∃ files : List (LayerSpec × OsStr), files.map Prod.fst = exArgs.layers ∧
      (∀ x ∈ files, x.2 ∈ layerCandidates exB1 exMacroWorld "f" x.1) := by
  obtain ⟨c, w', dv, h1, h2, files, -, h3, h4, -⟩ := C60_order exB1 exFormats exMacroWorld exArgs
  exact ⟨c, w', dv, h1, h2, files, h3.trans (by rfl), h4⟩

/-- **C60**: without `init` nothing is written, and the file taken is the chosen one. -/
example : ∃ c w' dv, createConfig exB1 exFormats exMacroWorld { exArgs with layers := [⟨"one", [.path "/b", .path "/a"], none⟩] } =
    .ok (c, w') ∧ w' = exMacroWorld ∧
    c = register exB1 exFormats [.memory "default" dv, .file "one" (os "/a/f.toml"), .environment "environment" "APP_"] := by
  obtain ⟨c, w', dv, h1, -, files, h2, h3, -, h4, -⟩ := C60_order exB1 exFormats exMacroWorld
    { exArgs with layers := [⟨"one", [.path "/b", .path "/a"], none⟩] }
  obtain ⟨h5, h6⟩ := h4 (by simp)
  refine ⟨c, w', dv, h1, h5, ?_⟩
  have e : exArgs.fileName = "f" := rfl
  replace h3 : files.map Prod.fst = [⟨"one", [.path "/b", .path "/a"], none⟩] := h3.trans (by rfl)
  obtain ⟨x, rfl⟩ : ∃ x, files = [x] := by
    have := congrArg List.length h3
    rw [List.length_map] at this
    exact List.length_eq_one_iff.1 this
  · have hx : x.1 = ⟨"one", [.path "/b", .path "/a"], none⟩ := by simpa using h3
    have := h6 x (by simp)
    rw [hx] at this
    have hp : x.2 = os "/a/f.toml" := by
      have e2 : chosen exMacroWorld (layerCandidates exB1 exMacroWorld "f" ⟨"one", [.path "/b", .path "/a"], none⟩) = some (os "/a/f.toml") := by
        decide
      exact Option.some.inj (this.symm.trans e2)
    rw [h2]
    simp [hx, hp, exArgs]

/-- **C60**: a default nobody else has an entry for shows through. -/
example (v : Value) (h : (register exB1 exFormats ([.memory "default" (.map [("text", .string "d"), ("n", .none)])] ++
    [.file "f" (os "/a.toml")])).buildValue exDisk true = .ok v) : view v [.key "n"] = some .none := by
  refine C60_defaults_underneath exB1 exFormats (.map [("text", .string "d"), ("n", .none)]) [.file "f" (os "/a.toml")] exDisk true v h rfl
    (by simp [UniqueKeys, UniqueKeysMap, UniqueKeysEntry]) ?_ [.key "n"] ?_
  · intro e he
    obtain ⟨c, hc, ho⟩ := List.mem_filterMap.1 he
    simp only [List.mem_singleton] at hc
    subst hc
    exact C08_builtin_proper exB1 exFormats (.file "f" (os "/a.toml")) e trivial (by simp) ho
  · intro e he hne
    have hl : firsts (offers exB1 exFormats ([.memory "default" (.map [("text", .string "d"), ("n", .none)])] ++
        [.file "f" (os "/a.toml")])) = [("default", .memory (.map [("text", .string "d"), ("n", .none)])),
        ("f", .file (textHandler exCodec) (os "/a.toml"))] := by rfl
    rw [hl] at he
    simp only [List.mem_cons, List.not_mem_nil, or_false] at he
    rcases he with rfl | rfl
    · exact absurd rfl hne
    · rintro ⟨x, hx, -, hs⟩
      have e : (Layer.file (textHandler exCodec) (os "/a.toml")).readValue exDisk = .ok (.map [("text", .string "hi")]) := by rfl
      rw [e] at hx; cases hx
      exact hs ⟨[], "n", [], rfl, fun q hq => by rw [List.prefix_nil.1 hq]; rfl, rfl⟩

/-- **C61**, **C62** and **C67**: the run creates `/b/f.toml` and keeps `/a/f.toml`; a second run writes nothing. -/
example (c : Config) (w' : World) (h : createConfig exB1 exFormats exMacroWorld exArgs = .ok (c, w')) :
    (∃ dv, valueMapMacro exArgs.default = some dv ∧ Created (Initialises exB1 exFormats exMacroWorld exArgs dv) exMacroWorld w') ∧
    w'.disk (w'.locate (os "/a/f.toml")) = .file (utf8 "precious") none none ∧
    (∀ c2 w'', createConfig exB1 exFormats w' exArgs = .ok (c2, w'') → w'' = w') :=
  ⟨C61_init_safe exB1 exFormats exMacroWorld exArgs (by decide) c w' h,
   (C61_existing_kept exB1 exFormats exMacroWorld exArgs (by decide) c w' h (os "/a/f.toml") (by decide)).trans (by rfl),
   fun c2 w'' h2 => C62_second_run exB1 exFormats exMacroWorld exArgs (by decide) c c2 w' w'' h h2⟩

/-- **C61**: without `init` nothing happens on disk. -/
example (c : Config) (w' : World)
    (h : createConfig exB1 exFormats exMacroWorld { exArgs with layers := [⟨"one", [.path "/a", .path "/b"], none⟩, ⟨"two", [.path "/b"], some false⟩] } =
      .ok (c, w')) : w' = exMacroWorld :=
  C61_no_init exB1 exFormats exMacroWorld _ (by simp) c w' h

/-- **C63**: the existence check saw nothing, another process then wrote the file, and its content is lost; had the check seen
a file, nothing would have been written. -/
example : ∃ between : World → World,
    (between exMacroWorld).disk 2 = .file (utf8 "theirs") none none ∧
    (initLayerRaced between exMacroWorld (register exB1 exFormats [.file "two" (os "/b/f.toml")]) true (os "/b/f.toml")
      ⟨"two", [.path "/b"], some true⟩ (.map [("text", .string "dflt")])).disk 2 = .file (utf8 "dflt") none none ∧
    initLayerRaced between exMacroWorld (register exB1 exFormats [.file "two" (os "/a/f.toml")]) true (os "/a/f.toml")
      ⟨"two", [.path "/a"], some true⟩ (.map [("text", .string "dflt")]) = between exMacroWorld :=
  ⟨fun w => w.put 2 (.file (utf8 "theirs") none none), rfl,
   C63_lost _ exMacroWorld _ (os "/b/f.toml") _ _ exCodec "dflt" (utf8 "theirs") rfl (by decide) (by rfl) rfl rfl rfl,
   C63_exists_at_check _ exMacroWorld _ true (os "/a/f.toml") _ _ (by decide)⟩

/-- **C67**: after the run, a candidate of the layer `two` exists. -/
example (c : Config) (w' : World) (h : createConfig exB1 exFormats exMacroWorld exArgs = .ok (c, w')) :
    ∃ q ∈ layerCandidates exB1 exMacroWorld "f" ⟨"two", [.path "/b"], some true⟩, w'.pathExists q = true := by
  obtain ⟨q, h1, h2, -⟩ := C67_init_creates exB1 exFormats exMacroWorld exArgs (by decide) c w' h _ rfl ⟨"two", [.path "/b"], some true⟩
    (by simp [exArgs]) rfl (by decide) (os "/b/f.toml") (by decide) exCodec (Or.inl ⟨by decide, rfl, rfl⟩) "dflt" rfl
    (by intro code h
        have e : exMacroWorld.disk (exMacroWorld.locate (os "/b/f.toml")) = .absent none := by rfl
        rw [e] at h; cases h)
  exact ⟨q, h1, h2⟩

end Verif.Props
