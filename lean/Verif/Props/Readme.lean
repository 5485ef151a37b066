import Verif.Model.Readme
import Verif.Props.Macro
/-! # C78: the program of the README and the macro that abbreviates it -/
namespace Verif.Props
open Spec Readme

theorem chosen_eq_find {w : World} {cs : List OsStr} (h : ∃ p ∈ cs, w.pathExists p = true) :
    ∃ p, chosen w cs = some p ∧ w.pathExists p = true := by
  obtain ⟨p, hp, he⟩ := h
  cases hf : cs.find? (fun p => w.pathExists p) with
  | none => have := List.find?_eq_none.1 hf p hp; simp [he] at this
  | some q => exact ⟨q, by rw [chosen, hf]; rfl, List.find?_some hf⟩

/-- The same search without `allow_missing`. -/
theorem strictFinder_spec (b : Build) (w : World) (name : String) (l : LayerSpec) :
    let f := l.dirs.foldl (FileFinder.withOsDirectory w) ((FileFinder.new name).withSupportedExtensions b)
    (∃ r, f.findFirst b w false = .ok r ∧ chosen w (layerCandidates b w name l) = some r.path ∧ w.pathExists r.path = true) ∨
    (∃ e, f.findFirst b w false = .err e ∧ ∀ p ∈ layerCandidates b w name l, w.pathExists p = false) := by
  intro f
  have hfe : f = ⟨l.dirs.filterMap (OSDirectory.toPathBuf w), name, enabled b⟩ := macroFinder_eq b w name l.dirs
  clear_value f
  have hc : (candidates f).map Prod.fst = layerCandidates b w name l := hfe ▸ candidates_map b w name l
  by_cases h1 : f.folders = []
  · right
    refine ⟨_, ((C49_validation b w f false).1 h1).1, ?_⟩
    rw [← hc]; unfold candidates; rw [h1]; simp
  · by_cases h2 : f.extensions = []
    · right
      refine ⟨_, ((C49_validation b w f false).2.1 h1 h2).1, ?_⟩
      rw [← hc]; unfold candidates; rw [h2]; simp
    · have hr : Ready f := ⟨h1, h2, by rw [hfe]; exact enabled_noSep b⟩
      unfold chosen
      rw [← hc]
      cases hfd : (candidates f).find? (fun c => w.pathExists c.1) with
      | some c =>
        left
        obtain ⟨i, g1, g2, g3⟩ := find_first_index _ _ hfd
        obtain ⟨r, e1, e2⟩ := (C45_find_first b w f false hr).1 i c g1 g2 g3
        refine ⟨r, e1, ?_, by rw [e2.1]; exact g2⟩
        rw [List.find?_map]
        have : ((fun p => w.pathExists p) ∘ Prod.fst : OsStr × String → Bool) = fun c => w.pathExists c.1 := rfl
        rw [this, hfd, e2.1]; rfl
      | none =>
        right
        have hno : ∀ c ∈ candidates f, w.pathExists c.1 = false := by
          intro c hcm
          have := List.find?_eq_none.1 hfd c hcm
          simpa using this
        refine ⟨_, ((C45_find_first b w f false hr).2 hno).2 rfl, ?_⟩
        intro p hp
        obtain ⟨c, hcm, rfl⟩ := List.mem_map.1 hp
        exact hno c hcm

/-- The global and the local layer of the README, as arguments of the macro. -/
def globalSpec : LayerSpec := ⟨"global", [.userHome, .userConfig], some true⟩
def localSpec : LayerSpec := ⟨"local", [.workingDirectory], none⟩

/-- What `globalPart` does, without the plumbing. -/
theorem globalPart_eq (b : Build) (fm : Formats) (c : Config) (w : World) (name : String) (dv : Value) :
    globalPart b fm c w name dv =
      match chosen w (layerCandidates b w name globalSpec) with
      | none => .ok (c, w)
      | some p =>
        if w.pathExists p then .ok ((RegCall.file "global" p).apply b fm c, w)
        else match ((RegCall.file "global" p).apply b fm c).getLayer "global" with
          | none => .ok ((RegCall.file "global" p).apply b fm c, w)
          | some l => match l.writeValue w dv with
            | (.ok (), w') => .ok ((RegCall.file "global" p).apply b fm c, w')
            | (.error _, _) => .panic := by
  unfold globalPart
  have hfind : globalFinder b w name = layerFinder b w name globalSpec.dirs := rfl
  rw [hfind]
  rcases layerFinder_spec b w name globalSpec with ⟨r, h1, h2⟩ | ⟨e, h1, h2⟩
  · rw [h1, h2]
    simp only [RegCall.apply]
    cases w.pathExists r.path
    · simp only [Bool.not_false, if_true, Bool.false_eq_true, if_false]
      cases (c.addFileLayer b fm "global" r.path).2.getLayer "global" <;> rfl
    · rfl
  · rw [h1, chosen_none.2 h2]

/-- The write that initialises the global file fails: the global file is missing, it can be registered, and writing the defaults there
reports an error. -/
def InitFails (b : Build) (fm : Formats) (w : World) (name : String) (dv : Value) : Prop :=
  ∃ p cd e, chosen w (layerCandidates b w name globalSpec) = some p ∧ w.pathExists p = false ∧
    ((pathExtension p = some (os "toml") ∧ b.toml = true ∧ cd = fm.toml) ∨
     (pathExtension p = some (os "json") ∧ b.json = true ∧ cd = fm.json)) ∧
    ((Layer.newFile (textHandler cd) p).writeValue w dv).1 = .error e

theorem is_default (b : Build) (fm : Formats) (dv : Value) :
    Is (register b fm [.memory "default" dv]) [("default", Layer.newMemory dv)] := is_register b fm [.memory "default" dv]

/-- The configuration after the call for the global file, as a list of layers. -/
def afterGlobal (b : Build) (fm : Formats) (dv : Value) (p : OsStr) : List (String × Layer) :=
  [("default", Layer.newMemory dv)] ++ ((RegCall.file "global" p).offer b fm).toList

theorem offer_name {b : Build} {fm : Formats} {n : String} {p : OsStr} {e : String × Layer} (h : (RegCall.file n p).offer b fm = some e) :
    e.1 = n := by
  obtain ⟨cd, rfl, -⟩ := offer_file h; rfl

theorem is_global (b : Build) (fm : Formats) (dv : Value) (p : OsStr) :
    Is ((RegCall.file "global" p).apply b fm (register b fm [.memory "default" dv])) (afterGlobal b fm dv p) := by
  have := is_apply (b := b) (fm := fm) (is_default b fm dv) (.file "global" p)
  unfold afterGlobal
  cases ho : (RegCall.file "global" p).offer b fm with
  | none => rw [ho] at this; exact this
  | some e =>
    rw [ho] at this
    have hn : e.1 ∉ [("default", Layer.newMemory dv)].map Prod.fst := by rw [offer_name ho]; simp
    simp only [pushTo, if_neg hn] at this
    exact this

theorem getLayer_global (b : Build) (fm : Formats) (dv : Value) (p : OsStr) :
    ((RegCall.file "global" p).apply b fm (register b fm [.memory "default" dv])).getLayer "global" =
      ((RegCall.file "global" p).offer b fm).map Prod.snd := by
  unfold Config.getLayer
  rw [(is_global b fm dv p).1, afterGlobal]
  cases ho : (RegCall.file "global" p).offer b fm with
  | none => rfl
  | some e =>
    obtain ⟨cd, rfl, -⟩ := offer_file ho
    simp [hmGet]

/-- The global part does what the macro does, unless it panics; it panics exactly if the write fails. -/
theorem globalPart_cases (b : Build) (fm : Formats) (w : World) (name : String) (dv : Value) :
    (¬ InitFails b fm w name dv ∧
      globalPart b fm (register b fm [.memory "default" dv]) w name dv =
        .ok (mStep b fm name dv (register b fm [.memory "default" dv], w) globalSpec)) ∨
    (InitFails b fm w name dv ∧ globalPart b fm (register b fm [.memory "default" dv]) w name dv = .panic) := by
  rw [globalPart_eq, mStep]
  cases hch : chosen w (layerCandidates b w name globalSpec) with
  | none => left; exact ⟨fun ⟨p, _, _, h, _⟩ => (by rw [hch] at h; cases h), rfl⟩
  | some p =>
    simp only []
    have hn : globalSpec.name = "global" := rfl
    rw [hn]
    cases he : w.pathExists p with
    | true =>
      left
      refine ⟨fun ⟨q, _, _, h, h2, _⟩ => (by rw [hch] at h; cases h; rw [he] at h2; cases h2), ?_⟩
      simp [initLayer, he, globalSpec]
    | false =>
      simp only [Bool.false_eq_true, if_false, getLayer_global]
      cases ho : (RegCall.file "global" p).offer b fm with
      | none =>
        left
        refine ⟨fun ⟨q, cd, e, h, h2, h3, h4⟩ => ?_, ?_⟩
        · rw [hch] at h; cases h
          rcases h3 with ⟨h3, h5, -⟩ | ⟨h3, h5, -⟩
          · simp [RegCall.offer, h3, h5] at ho
          · simp only [RegCall.offer, h3, h5] at ho
            split at ho
            · cases ho
            · simp at ho
        · simp [initLayer, globalSpec]
      | some e =>
        obtain ⟨cd, rfl, hcd⟩ := offer_file ho
        simp only [Option.map_some, Option.isSome_some]
        have hi : initLayer w ((RegCall.file "global" p).apply b fm (register b fm [.memory "default" dv])) true p globalSpec dv =
            ((Layer.file (textHandler cd) p).writeValue w dv).2 := by
          have := getLayer_global b fm dv p
          rw [ho] at this
          simp only [Option.map_some] at this
          simp [initLayer, globalSpec, he, this]
        rw [hi]
        cases hw : (Layer.file (textHandler cd) p).writeValue w dv with
        | mk res w' =>
          cases res with
          | ok u =>
            left
            refine ⟨fun ⟨q, cd', e, h, h2, h3, h4⟩ => ?_, rfl⟩
            rw [hch] at h; cases h
            have : cd' = cd := by
              rcases hcd with ⟨a, -, rfl⟩ | ⟨a, -, rfl⟩ <;> rcases h3 with ⟨a', -, rfl⟩ | ⟨a', -, rfl⟩
              · rfl
              · rw [a] at a'; exact absurd a' (by decide)
              · rw [a] at a'; exact absurd a' (by decide)
              · rfl
            subst this
            rw [Layer.newFile, hw] at h4; cases h4
          | error e => right; exact ⟨⟨p, cd, e, hch, he, hcd, by rw [Layer.newFile, hw]⟩, rfl⟩

theorem localPart_eq (b : Build) (fm : Formats) (c : Config) (w : World) (name : String) :
    localPart b fm c w name = .ok
      (match (layerCandidates b w name localSpec).find? (fun p => w.pathExists p) with
      | none => c
      | some p => (RegCall.file "local" p).apply b fm c) := by
  unfold localPart
  have hfind : localFinder b w name =
    (localSpec.dirs.foldl (FileFinder.withOsDirectory w) ((FileFinder.new name).withSupportedExtensions b)).findFirst b w false := rfl
  rw [hfind]
  rcases strictFinder_spec b w name localSpec with ⟨r, h1, h2, h3⟩ | ⟨e, h1, h2⟩
  · rw [h1]
    have : (layerCandidates b w name localSpec).find? (fun p => w.pathExists p) = some r.path := by
      unfold chosen at h2
      cases hf : (layerCandidates b w name localSpec).find? (fun p => w.pathExists p) with
      | none =>
        rw [hf, Option.none_or] at h2
        have := List.find?_eq_none.1 hf r.path (List.mem_of_mem_head? h2)
        simp [h3] at this
      | some q => rw [hf] at h2; exact h2
    rw [this]; rfl
  · rw [h1, List.find?_eq_none.2 (fun p hp => by simp [h2 p hp])]

theorem createConfig_readme (b : Build) (fm : Formats) (w : World) (name : String) (default : List (String × Value)) (pre : String) (dv : Value)
    (hdv : valueMapMacro default = some dv) :
    createConfig b fm w (macroArgs name default pre) =
      .ok ((RegCall.environment "environment" pre).apply b fm
          (mStep b fm name dv (mStep b fm name dv (register b fm [.memory "default" dv], w) globalSpec) localSpec).1,
        (mStep b fm name dv (register b fm [.memory "default" dv], w) globalSpec).2) := by
  obtain ⟨dv', h1, h2⟩ := createConfig_eq b fm w (macroArgs name default pre)
  rw [h2]
  have : dv' = dv := by rw [show (macroArgs name default pre).default = default from rfl, hdv] at h1; cases h1; rfl
  subst this
  have hl : ∀ st, (mStep b fm name dv' st localSpec).2 = st.2 := by
    intro st
    unfold mStep
    cases chosen st.2 (layerCandidates b st.2 name localSpec) with
    | none => rfl
    | some p =>
      have : localSpec.init ≠ some true := by decide
      dsimp only
      exact initLayer_no_init this
  have hargs : (macroArgs name default pre).layers = [globalSpec, localSpec] := rfl
  have hname : (macroArgs name default pre).fileName = name := rfl
  rw [hargs, hname, List.foldl_cons, List.foldl_cons, List.foldl_nil, hl]
  rfl

theorem program_eq (b : Build) (fm : Formats) (w : World) (name : String) (default : List (String × Value)) (pre : String) (dv : Value)
    (hdv : valueMapMacro default = some dv) :
    program b fm w name default pre =
      (globalPart b fm (register b fm [.memory "default" dv]) w name dv >>= fun (c, w) =>
        .ok ((RegCall.environment "env" pre).apply b fm
          (match (layerCandidates b w name localSpec).find? (fun p => w.pathExists p) with
            | none => c
            | some p => (RegCall.file "local" p).apply b fm c), w)) := by
  unfold program
  rw [hdv]
  simp only [localPart_eq]
  rfl

theorem hmGet_append {α : Type} (a b : List (String × α)) (k : String) : hmGet (a ++ b) k = (hmGet a k).or (hmGet b k) := by
  induction a with
  | nil => rfl
  | cons e a ih =>
    obtain ⟨k', v⟩ := e
    rw [List.cons_append, hmGet, hmGet, ih]
    split <;> rfl

theorem hmGet_none {α : Type} {a : List (String × α)} {k : String} : hmGet a k = none ↔ k ∉ a.map Prod.fst := by
  rw [← hmGet_isSome_iff]
  cases hmGet a k <;> simp

/-- A configuration with one more layer of a new name, and then a layer `E` under one name or another. -/
theorem is_more {c : Config} {ls : List (String × Layer)} (h : Is c ls) (n : String) (l : Layer) (hn : n ∉ ls.map Prod.fst) :
    Is (c.pushLayer n l) (ls ++ [(n, l)]) := by
  have := is_push h n l
  rwa [pushTo, if_neg hn] at this

theorem is_globalStep (b : Build) (fm : Formats) (w : World) (name : String) (dv : Value) :
    ∃ ls, Is (mStep b fm name dv (register b fm [.memory "default" dv], w) globalSpec).1 ls ∧
      ∀ n ∈ ls.map Prod.fst, n = "default" ∨ n = "global" := by
  unfold mStep
  cases chosen w (layerCandidates b w name globalSpec) with
  | none => exact ⟨_, is_default b fm dv, by simp⟩
  | some p =>
    refine ⟨_, is_global b fm dv p, ?_⟩
    unfold afterGlobal
    cases ho : (RegCall.file "global" p).offer b fm with
    | none => simp
    | some e => simp [offer_name ho]

/-- **C78.** Whenever the program of the README gets through, the macro leaves the same world behind, and its configuration builds the same
value (or the same error), now and in every later world, as long as no local file comes up where there was none. -/
theorem C78_same (b : Build) (fm : Formats) (w : World) (name : String) (default : List (String × Value)) (pre : String)
    (c : Config) (w' : World) (hrun : program b fm w name default pre = .ok (c, w')) :
    ∃ c', createConfig b fm w (macroArgs name default pre) = .ok (c', w') ∧
      ∀ w2 skip, ((∀ p ∈ layerCandidates b w' name localSpec, w'.pathExists p = false) →
          ∀ p ∈ layerCandidates b w' name localSpec, w2.pathExists p = false) →
        c.buildValue w2 skip = c'.buildValue w2 skip := by
  obtain ⟨dv, hdv, -⟩ := C19_value_map default
  rw [program_eq b fm w name default pre dv hdv] at hrun
  rcases globalPart_cases b fm w name dv with ⟨-, h⟩ | ⟨-, h⟩
  swap
  · rw [h] at hrun; cases hrun
  rw [h, Outcome.bind_ok] at hrun
  refine ⟨(RegCall.environment "environment" pre).apply b fm
    (mStep b fm name dv (mStep b fm name dv (register b fm [.memory "default" dv], w) globalSpec) localSpec).1, ?_, ?_⟩
  · rw [createConfig_readme b fm w name default pre dv hdv]
    cases hrun; rfl
  · obtain ⟨ls, his, hls⟩ := is_globalStep b fm w name dv
    generalize mStep b fm name dv (register b fm [.memory "default" dv], w) globalSpec = st at *
    obtain ⟨c1, w1⟩ := st
    simp only at hrun his
    have hw : w1 = w' := by cases hrun; rfl
    subst hw
    have hc : c = (RegCall.environment "env" pre).apply b fm
        (match (layerCandidates b w1 name localSpec).find? (fun p => w1.pathExists p) with
          | none => c1
          | some p => (RegCall.file "local" p).apply b fm c1) := by cases hrun; rfl
    clear hrun
    intro w2 skip hlater
    subst hc
    -- the environment layer under either name
    have henv : ∀ (d : Config) (ms : List (String × Layer)) (n : String), Is d ms → n ∉ ms.map Prod.fst →
        ((RegCall.environment n pre).apply b fm d).buildValue w2 skip =
          buildList w2 skip Value.newMap (ms ++ [("", Layer.newEnvironment pre)]) := by
      intro d ms n hd hn
      rw [show (RegCall.environment n pre).apply b fm d = d.pushLayer n (Layer.newEnvironment pre) from rfl,
        buildValue_is (is_more hd n _ hn), buildList_append, buildList_append]
      rfl
    have hnames : ∀ n, n ≠ "default" → n ≠ "global" → n ∉ ls.map Prod.fst := by
      intro n h1 h2 h3
      rcases hls n h3 with h | h
      · exact h1 h
      · exact h2 h
    have hlocal : localSpec.name = "local" := rfl
    unfold mStep chosen
    simp only [hlocal]
    cases hf : (layerCandidates b w1 name localSpec).find? (fun p => w1.pathExists p) with
    | some p =>
      simp only [Option.some_or]
      have := is_apply (b := b) (fm := fm) his (.file "local" p)
      cases ho : (RegCall.file "local" p).offer b fm with
      | none =>
        rw [ho] at this
        rw [henv _ ls "env" this (hnames _ (by decide) (by decide)), henv _ ls "environment" this (hnames _ (by decide) (by decide))]
      | some e =>
        rw [ho] at this
        have he := offer_name ho
        have hms : ∀ n, n ≠ "default" → n ≠ "global" → n ≠ "local" → n ∉ (pushTo ls e).map Prod.fst := by
          intro n h1 h2 h3
          unfold pushTo
          split
          · exact hnames n h1 h2
          · simp only [List.map_append, List.mem_append, not_or]
            exact ⟨hnames n h1 h2, by simp [he, h3]⟩
        rw [henv _ _ "env" this (hms _ (by decide) (by decide) (by decide)),
          henv _ _ "environment" this (hms _ (by decide) (by decide) (by decide))]
    | none =>
      simp only [Option.none_or]
      cases hh : (layerCandidates b w1 name localSpec).head? with
      | none =>
        simp only
        rw [henv _ ls "env" his (hnames _ (by decide) (by decide)), henv _ ls "environment" his (hnames _ (by decide) (by decide))]
      | some p =>
        simp only
        have hmiss : w2.pathExists p = false := by
          refine hlater (fun q hq => ?_) p (List.mem_of_mem_head? hh)
          simpa using List.find?_eq_none.1 hf q hq
        have := is_apply (b := b) (fm := fm) his (.file "local" p)
        rw [henv _ ls "env" his (hnames _ (by decide) (by decide))]
        cases ho : (RegCall.file "local" p).offer b fm with
        | none =>
          rw [ho] at this
          rw [henv _ ls "environment" this (hnames _ (by decide) (by decide))]
        | some e =>
          rw [ho] at this
          obtain ⟨cd, rfl, -⟩ := offer_file ho
          simp only [pushTo, if_neg (hnames "local" (by decide) (by decide))] at this
          rw [henv _ _ "environment" this ?_]
          · rw [List.append_assoc, buildList_append, buildList_append]
            cases buildList w2 skip Value.newMap ls with
            | error e => rfl
            | ok v =>
              have hr : (Layer.file (textHandler cd) p).readValue w2 = .ok (.map []) := C56_missing _ w2 p hmiss
              simp only [Except.bind, List.cons_append, List.nil_append]
              rw [buildList.eq_def w2 skip v (("local", _) :: _)]
              simp only [hr, C02_merge_empty]
          · simp only [List.map_append, List.mem_append, not_or]
            exact ⟨hnames _ (by decide) (by decide), by simp⟩

/-- **C78.** The program of the README panics exactly if the write that initialises the global file fails; the macro never does. -/
theorem C78_panics (b : Build) (fm : Formats) (w : World) (name : String) (default : List (String × Value)) (pre : String) (dv : Value)
    (hdv : valueMapMacro default = some dv) :
    (program b fm w name default pre = .panic ↔ InitFails b fm w name dv) ∧
    (∀ e, program b fm w name default pre ≠ .err e) ∧
    ∃ st, createConfig b fm w (macroArgs name default pre) = .ok st := by
  rw [program_eq b fm w name default pre dv hdv]
  refine ⟨?_, ?_, _, createConfig_readme b fm w name default pre dv hdv⟩
  · rcases globalPart_cases b fm w name dv with ⟨h1, h⟩ | ⟨h1, h⟩
    · rw [h]; simp [h1]
    · rw [h]; simp [h1]
  · intro e
    rcases globalPart_cases b fm w name dv with ⟨h1, h⟩ | ⟨h1, h⟩
    · rw [h]; simp
    · rw [h]; simp

/-- **C78.** The one difference: where there is no local file, the program of the README has no layer `local`, the macro has one, for the first
place where the file could be. So only the macro's configuration notices, or can write, a local file later on. -/
theorem C78_later (b : Build) (fm : Formats) (w : World) (name : String) (default : List (String × Value)) (pre : String)
    (c c' : Config) (w' : World) (hrun : program b fm w name default pre = .ok (c, w'))
    (hrun' : createConfig b fm w (macroArgs name default pre) = .ok (c', w'))
    (hno : ∀ p ∈ layerCandidates b w' name localSpec, w'.pathExists p = false) :
    c.getLayer "local" = none ∧
    ∀ p, (layerCandidates b w' name localSpec).head? = some p →
      ((b.toml = true ∧ pathExtension p = some (os "toml")) → c'.getLayer "local" = some (.file (textHandler fm.toml) p)) ∧
      ((b.json = true ∧ pathExtension p = some (os "json")) → c'.getLayer "local" = some (.file (textHandler fm.json) p)) := by
  obtain ⟨dv, hdv, -⟩ := C19_value_map default
  rw [program_eq b fm w name default pre dv hdv] at hrun
  rw [createConfig_readme b fm w name default pre dv hdv] at hrun'
  rcases globalPart_cases b fm w name dv with ⟨-, h⟩ | ⟨-, h⟩
  swap
  · rw [h] at hrun; cases hrun
  rw [h, Outcome.bind_ok] at hrun
  obtain ⟨ls, his, hls⟩ := is_globalStep b fm w name dv
  generalize mStep b fm name dv (register b fm [.memory "default" dv], w) globalSpec = st at *
  obtain ⟨c1, w1⟩ := st
  simp only at hrun his hrun'
  have hw : w1 = w' := by cases hrun; rfl
  subst hw
  have hfind : (layerCandidates b w1 name localSpec).find? (fun p => w1.pathExists p) = none :=
    List.find?_eq_none.2 fun p hp => by simp [hno p hp]
  rw [hfind] at hrun
  simp only [Outcome.ok.injEq, Prod.mk.injEq, and_true] at hrun hrun'
  have hl : "local" ∉ ls.map Prod.fst := fun h => by rcases hls _ h with h | h <;> exact absurd h (by decide)
  have hget : ∀ {d : Config} {ms : List (String × Layer)} (n : String) (_ : Is d ms) (l : Layer), n ≠ "local" →
      (d.pushLayer n l).getLayer "local" = hmGet ms "local" := by
    intro d ms n hd l hn
    unfold Config.getLayer
    rw [(is_push hd n l).1]
    unfold pushTo
    split
    · rfl
    · rw [hmGet_append]; cases hmGet ms "local" <;> simp [hmGet, hn]
  refine ⟨?_, ?_⟩
  · rw [← hrun]
    exact (hget "env" his _ (by decide)).trans (hmGet_none.2 hl)
  · intro p hp
    have hm : ∀ e, (RegCall.file "local" p).offer b fm = some e → c'.getLayer "local" = some e.2 := by
      intro e ho
      have hi := is_apply (b := b) (fm := fm) his (.file "local" p)
      have he := offer_name ho
      rw [ho] at hi
      simp only [pushTo, he, if_neg hl] at hi
      rw [← hrun']
      have hlocal : localSpec.name = "local" := rfl
      simp only [hlocal, mStep, chosen, hfind, Option.none_or, hp]
      refine (hget "environment" hi _ (by decide)).trans ?_
      rw [hmGet_append, hmGet_none.2 hl, ← he]; simp [hmGet]
    constructor
    · rintro ⟨h1, h2⟩
      exact hm ("local", .file (textHandler fm.toml) p) (by simp [RegCall.offer, h1, h2])
    · rintro ⟨h1, h2⟩
      refine hm ("local", .file (textHandler fm.json) p) ?_
      simp only [RegCall.offer, h1, h2]
      rw [if_neg (by rintro ⟨-, h⟩; exact absurd h (by decide))]; simp

/-! ### A concrete case: home `/h`, working directory `/w` with a local file, no global file yet -/

def exReadmeWorld : World :=
  { locate := fun p => if p = os "/h/f.toml" then 1 else if p = os "/w/f.toml" then 2 else 3,
    disk := fun s => if s = 2 then .file (utf8 "mine") none none else .absent none,
    room := fun _ => none, env := [(os "APP_k", os "v")], baseDirs := some ⟨os "/h", os "/h/c", os "/h/p"⟩, cwd := some (os "/w") }

example : ∃ c w', program exB1 exFormats exReadmeWorld "f" [("text", .string "dflt")] "APP_" = .ok (c, w') ∧
    w'.disk 1 = .file (utf8 "dflt") none none ∧ (c.layers.map Prod.fst) = ["default", "global", "local", "env"] :=
  ⟨_, _, rfl, rfl, rfl⟩

/-- A full disk: the program of the README panics, the macro goes on. -/
example : InitFails exB1 exFormats { exReadmeWorld with room := fun _ => some (2, 28) } "f" (.map [("text", .string "dflt")]) :=
  ⟨os "/h/f.toml", exCodec, .ioError (.refused 28), by decide, by decide, Or.inl ⟨by decide, rfl, rfl⟩, by decide⟩

/-- Without the local file: the configuration of the README program lacks the layer. -/
example : ∃ c c' w', program exB1 exFormats { exReadmeWorld with disk := fun _ => .absent none } "f" [("text", .string "dflt")] "APP_" = .ok (c, w') ∧
    createConfig exB1 exFormats { exReadmeWorld with disk := fun _ => .absent none } (macroArgs "f" [("text", .string "dflt")] "APP_") = .ok (c', w') ∧
    (∀ p ∈ layerCandidates exB1 w' "f" localSpec, w'.pathExists p = false) ∧
    (c.layers.map Prod.fst) = ["default", "global", "env"] ∧ (c'.layers.map Prod.fst) = ["default", "global", "local", "environment"] := by
  refine ⟨_, _, _, rfl, rfl, ?_, rfl, rfl⟩
  decide

/-- **C78** at work: the program of the README and the macro give the same values, in every later world, since the local file exists. -/
example (c : Config) (w' : World) (h : program exB1 exFormats exReadmeWorld "f" [("text", .string "dflt")] "APP_" = .ok (c, w')) :
    ∃ c', createConfig exB1 exFormats exReadmeWorld (macroArgs "f" [("text", .string "dflt")] "APP_") = .ok (c', w') ∧
      ∀ w2 skip, c.buildValue w2 skip = c'.buildValue w2 skip := by
  obtain ⟨c', h1, h2⟩ := C78_same exB1 exFormats exReadmeWorld "f" [("text", .string "dflt")] "APP_" c w' h
  refine ⟨c', h1, fun w2 skip => h2 w2 skip fun hno => ?_⟩
  have e : createConfig exB1 exFormats exReadmeWorld (macroArgs "f" [("text", .string "dflt")] "APP_") = .ok (c', w') := h1
  have hw : w'.pathExists (os "/w/f.toml") = true := by cases e; rfl
  have hm : os "/w/f.toml" ∈ layerCandidates exB1 w' "f" localSpec := by cases e; decide
  rw [hno _ hm] at hw
  cases hw

/-- On a full disk the program panics. -/
example : program exB1 exFormats { exReadmeWorld with room := fun _ => some (2, 28) } "f" [("text", .string "dflt")] "APP_" = .panic :=
  (C78_panics exB1 exFormats { exReadmeWorld with room := fun _ => some (2, 28) } "f" [("text", .string "dflt")] "APP_" _ rfl).1.2
    ⟨os "/h/f.toml", exCodec, .ioError (.refused 28), by decide, by decide, Or.inl ⟨by decide, rfl, rfl⟩, by decide⟩

/-- Without the local file the two configurations differ in the layer `local`. -/
example (c c' : Config) (w' : World)
    (h : program exB1 exFormats { exReadmeWorld with disk := fun _ => .absent none } "f" [("text", .string "dflt")] "APP_" = .ok (c, w'))
    (h' : createConfig exB1 exFormats { exReadmeWorld with disk := fun _ => .absent none } (macroArgs "f" [("text", .string "dflt")] "APP_") =
      .ok (c', w')) :
    c.getLayer "local" = none ∧ c'.getLayer "local" = some (.file (textHandler exCodec) (os "/w/f.toml")) := by
  obtain ⟨h1, h2⟩ := C78_later exB1 exFormats _ "f" [("text", .string "dflt")] "APP_" c c' w' h h' (by cases h'; decide)
  exact ⟨h1, (h2 (os "/w/f.toml") (by cases h'; decide)).1 ⟨rfl, by decide⟩⟩

end Verif.Props
