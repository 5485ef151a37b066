import Verif.Spec.MacroLog
import Verif.Lemmas.Macro
import Verif.Props.Log
import Verif.Props.Macro
/-!
# What `create_config!` writes to the log (C109)
-/
namespace Verif.Props
open Spec

/-! ## With and without log -/

theorem hmGet_mapped {α β : Type} (f : α → β) (m : List (String × α)) (k : String) : hmGet (m.map fun e => (e.1, f e.2)) k = (hmGet m k).map f := by
  induction m with
  | nil => rfl
  | cons e m ih =>
    obtain ⟨k', v⟩ := e
    simp only [List.map_cons, hmGet]
    by_cases h : k' = k <;> simp [h, ih]

theorem hmInsert_mapped {α β : Type} (f : α → β) (m : List (String × α)) (k : String) (v : α) :
    hmInsert (m.map fun e => (e.1, f e.2)) k (f v) = (hmInsert m k v).map fun e => (e.1, f e.2) := by
  induction m with
  | nil => rfl
  | cons e m ih =>
    obtain ⟨k', v'⟩ := e
    simp only [List.map_cons, hmInsert]
    by_cases h : k' = k <;> simp [h, ih]

theorem plain_getLayer (c : LogConfig) (n : String) : (plainConfig c).getLayer n = (c.getLayer n).map LogLayer.toLayer := hmGet_mapped _ _ _

theorem plain_pushLayer (c : LogConfig) (n : String) (l : LogLayer) : plainConfig (c.pushLayer n l).1 = (plainConfig c).pushLayer n l.toLayer := by
  unfold LogConfig.pushLayer Config.pushLayer
  have h : (hmGet (plainConfig c).layers n).isSome = (hmGet c.layers n).isSome := by
    rw [show hmGet (plainConfig c).layers n = _ from hmGet_mapped _ _ _, Option.isSome_map]
  rw [h]
  by_cases hs : (hmGet c.layers n).isSome = true
  · rw [if_pos hs, if_pos hs]
  · rw [if_neg hs, if_neg hs]
    simp only [plainConfig, Config.mk.injEq, true_and]
    exact (hmInsert_mapped _ _ _ _).symm

theorem log_pushLayer (c : LogConfig) (n : String) (l : LogLayer) :
    (c.pushLayer n l).2 = (if c.getLayer n = none then [] else [.layerExists n]) ∧
    (c.pushLayer n l).1.getLayer n = some ((c.getLayer n).getD l) := by
  unfold LogConfig.pushLayer LogConfig.getLayer
  cases h : hmGet c.layers n with
  | none =>
    refine ⟨by simp, ?_⟩
    simp only [Option.isSome_none, Bool.false_eq_true, if_false, Option.getD_none]
    rw [hmGet_insert, if_pos rfl]
  | some x => exact ⟨by simp, by simp [h]⟩

theorem plain_addFileLayer (b : Build) (fm : Formats) (c : LogConfig) (n : String) (p : OsStr) :
    plainConfig (c.addFileLayer b fm n p).1.2 = (RegCall.file n p).apply b fm (plainConfig c) := by
  unfold LogConfig.addFileLayer
  rw [RegCall.apply]
  unfold Config.addFileLayer
  split
  · exact plain_pushLayer c n _
  · split
    · exact plain_pushLayer c n _
    · rfl

theorem formatOf_offer {b : Build} {fm : Formats} {n : String} {p : OsStr} :
    ((LogCall.file n p).offer b fm = none ∧ ∀ f cd, ¬ FormatNamed b fm p f cd) ∨
    ∃ f cd, (LogCall.file n p).offer b fm = some (n, .file f cd p) ∧ FormatNamed b fm p f cd := by
  unfold LogCall.offer
  by_cases h1 : b.toml = true ∧ pathExtension p = some (os "toml")
  · right; refine ⟨.toml, fm.toml, by simp only [if_pos h1], .toml h1.1 h1.2⟩
  · by_cases h2 : b.json = true ∧ pathExtension p = some (os "json")
    · right; refine ⟨.json, fm.json, by simp only [if_neg h1, if_pos h2], .json h2.1 h2.2⟩
    · left
      refine ⟨by simp only [if_neg h1, if_neg h2], ?_⟩
      intro f cd h
      cases h with
      | toml h he => exact h1 ⟨h, he⟩
      | json h he => exact h2 ⟨h, he⟩

theorem formatOf_textFmt {b : Build} {fm : Formats} {p : OsStr} {f : FileExtension} {cd : Codec} (h : FormatNamed b fm p f cd) : TextFmt b fm p cd := by
  cases h with
  | toml h he => exact Or.inl ⟨he, h, rfl⟩
  | json h he => exact Or.inr ⟨he, h, rfl⟩

theorem formatOf_unique {b : Build} {fm : Formats} {p : OsStr} {f g : FileExtension} {cd cd' : Codec} (h : FormatNamed b fm p f cd) (h' : FormatNamed b fm p g cd') :
    f = g ∧ cd = cd' := by
  have ne : ¬ os "toml" = os "json" := by decide
  cases h with
  | toml h he =>
    cases h' with
    | toml => exact ⟨rfl, rfl⟩
    | json _ he' => rw [he] at he'; exact absurd (Option.some.inj he') ne
  | json h he =>
    cases h' with
    | json => exact ⟨rfl, rfl⟩
    | toml _ he' => rw [he] at he'; exact absurd (Option.some.inj he').symm ne

theorem log_writeRecords (x : LogLayer) (w : World) (v : Value) : (x.writeValue w v).2 = writeRecords x := by
  cases x with
  | file f c p => show (LogLayer.writeFile f c w p v).2 = _; rw [log_writeFile]; rfl
  | _ => rfl

/-! ## One layer -/

theorem withOsLog (w : World) (ds : List OSDirectory) : ∀ (f : FileFinder) (log : List LogRecord),
    ds.foldl (FileFinder.withOsDirectoryLog w) (f, log) =
      (ds.foldl (FileFinder.withOsDirectory w) f, log ++ (ds.filter fun d => d.toPathBuf w = none).map LogRecord.noDirectory) := by
  induction ds with
  | nil => intro f log; simp
  | cons d ds ih =>
    intro f log
    rw [List.foldl_cons, List.foldl_cons, List.filter_cons]
    have : FileFinder.withOsDirectoryLog w (f, log) d = (FileFinder.withOsDirectory w f d, log ++ if d.toPathBuf w = none then [.noDirectory d] else []) := by
      unfold FileFinder.withOsDirectoryLog FileFinder.withOsDirectory
      cases d.toPathBuf w <;> simp
    rw [this, ih]
    cases d.toPathBuf w <;> simp

theorem layerFinderLog_eq (b : Build) (w : World) (name : String) (l : LayerSpec) :
    layerFinderLog b w name l.dirs = (layerFinder b w name l.dirs, unresolved w l) := by
  unfold layerFinderLog layerFinder unresolved
  rw [withOsLog]; simp

/-- The error of a search that finds nothing at all. -/
def searchFailure (w : World) (l : LayerSpec) : BakuninError :=
  if ∀ d ∈ l.dirs, d.toPathBuf w = none then .fileFinderError .noFoldersDefined else .fileFinderError .noExtensionsDefined

theorem layerFinder_err (b : Build) (w : World) (name : String) (l : LayerSpec) (h : layerCandidates b w name l = []) :
    layerFinder b w name l.dirs = .err (searchFailure w l) := by
  unfold layerFinder searchFailure
  rw [macroFinder_eq]
  generalize hf : (⟨l.dirs.filterMap (OSDirectory.toPathBuf w), name, enabled b⟩ : FileFinder) = f
  have hfold : f.folders = [] ↔ ∀ d ∈ l.dirs, d.toPathBuf w = none := by rw [← hf, List.filterMap_eq_nil_iff]
  by_cases h1 : f.folders = []
  · rw [((C49_validation b w f true).1 h1).1, if_pos (hfold.1 h1)]
  · have h2 : f.extensions = [] := by
      subst hf
      unfold layerCandidates at h
      cases hfs : l.dirs.filterMap (OSDirectory.toPathBuf w) with
      | nil => exact absurd hfs h1
      | cons a as =>
        rw [hfs, List.flatMap_cons, List.append_eq_nil_iff, List.map_eq_nil_iff] at h
        exact h.1
    rw [((C49_validation b w f true).2.1 h1 h2).1, if_neg (fun hh => h1 (hfold.2 hh))]

/-- One layer, without the plumbing: the state after it and the records. -/
def lStep (b : Build) (fm : Formats) (name : String) (dv : Value) (st : LogConfig × World) (l : LayerSpec) : (LogConfig × World) × List LogRecord :=
  match chosen st.2 (layerCandidates b st.2 name l) with
  | none => (st, unresolved st.2 l ++ [.searchError (searchFailure st.2 l)])
  | some p =>
    match (LogCall.file l.name p).offer b fm with
    | none => (st, unresolved st.2 l)
    | some e =>
      let c := st.1.pushLayer e.1 e.2
      let i := initLayerLog st.2 c.1 true p l dv
      ((c.1, i.1), unresolved st.2 l ++ c.2 ++ i.2)

theorem initLayerLog_not {w : World} {c : LogConfig} {p : OsStr} {l : LayerSpec} {dv : Value} : initLayerLog w c false p l dv = (w, []) := by
  unfold initLayerLog
  cases l.init <;> simp

theorem macroLayerLog_eq (b : Build) (fm : Formats) (name : String) (dv : Value) (st : LogConfig × World) (l : LayerSpec) :
    macroLayerLog b fm name dv st l = (.ok (lStep b fm name dv st l).1, (lStep b fm name dv st l).2) := by
  unfold macroLayerLog lStep
  rw [layerFinderLog_eq]
  rcases layerFinder_spec b st.2 name l with ⟨r, h1, h2⟩ | ⟨e, h1, h2⟩
  · rw [h1, h2]
    simp only []
    rw [log_addFileLayer]
    cases (LogCall.file l.name r.path).offer b fm with
    | none => simp [initLayerLog_not]
    | some e => rfl
  · rw [layerFinder_err b st.2 name l h2, chosen_none.2 h2]

/-- The layers one after the other. -/
def lRun (b : Build) (fm : Formats) (name : String) (dv : Value) (st : LogConfig × World) : List LayerSpec → (LogConfig × World) × List LogRecord
  | [] => (st, [])
  | l :: ls =>
    ((lRun b fm name dv (lStep b fm name dv st l).1 ls).1, (lStep b fm name dv st l).2 ++ (lRun b fm name dv (lStep b fm name dv st l).1 ls).2)

theorem macroLayersLog_eq (b : Build) (fm : Formats) (name : String) (dv : Value) (ls : List LayerSpec) : ∀ st log,
    macroLayersLog b fm name dv st log ls = (.ok (lRun b fm name dv st ls).1, log ++ (lRun b fm name dv st ls).2) := by
  induction ls with
  | nil => intro st log; simp [macroLayersLog, lRun]
  | cons l ls ih =>
    intro st log
    rw [macroLayersLog, macroLayerLog_eq, lRun]
    simp only []
    rw [ih, List.append_assoc]

theorem lRun_append (b : Build) (fm : Formats) (name : String) (dv : Value) (ls : List LayerSpec) (l : LayerSpec) : ∀ st,
    lRun b fm name dv st (ls ++ [l]) = ((lStep b fm name dv (lRun b fm name dv st ls).1 l).1,
      (lRun b fm name dv st ls).2 ++ (lStep b fm name dv (lRun b fm name dv st ls).1 l).2) := by
  induction ls with
  | nil => intro st; simp [lRun]
  | cons x ls ih => intro st; rw [List.cons_append, lRun, ih, lRun]; simp

/-- The configuration with which the layers start. -/
def startLog (dv : Value) : LogConfig := (LogConfig.new.addMemoryLayer "default" dv).1

theorem createConfigLog_eq (b : Build) (fm : Formats) (w : World) (args : MacroArgs) :
    ∃ dv, valueMapMacro args.default = some dv ∧
      createConfigLog b fm w args =
        (let r := lRun b fm args.fileName dv (startLog dv, w) args.layers
         match args.env with
         | none => (.ok r.1, r.2)
         | some pre => (.ok ((r.1.1.addEnvironmentLayer "environment" pre).1, r.1.2), r.2 ++ (r.1.1.addEnvironmentLayer "environment" pre).2)) := by
  obtain ⟨dv, h, -⟩ := C19_value_map args.default
  refine ⟨dv, h, ?_⟩
  unfold createConfigLog
  rw [h]
  simp only []
  rw [macroLayersLog_eq]
  simp only []
  have : (LogConfig.new.addMemoryLayer "default" dv).2 = [] := rfl
  rw [this]
  cases args.env <;> rfl

theorem plain_initLayer (w : World) (c : LogConfig) (added : Bool) (p : OsStr) (l : LayerSpec) (dv : Value) :
    (initLayerLog w c added p l dv).1 = initLayer w (plainConfig c) added p l dv := by
  unfold initLayerLog initLayer
  cases l.init with
  | none => rfl
  | some flag =>
    simp only []
    rw [plain_getLayer]
    by_cases h : (added && !w.pathExists p && flag) = true
    · rw [if_pos h, if_pos h]
      cases c.getLayer l.name with
      | none => rfl
      | some x =>
        simp only [Option.map_some]
        rw [← log_writeValue]
        generalize x.writeValue w dv = r
        obtain ⟨⟨r, w'⟩, lg⟩ := r
        cases r <;> rfl
    · rw [if_neg h, if_neg h]

/-- The layer, with and without the log. -/
theorem lStep_mStep (b : Build) (fm : Formats) (name : String) (dv : Value) (st : LogConfig × World) (l : LayerSpec) :
    mStep b fm name dv (plainConfig st.1, st.2) l = (plainConfig (lStep b fm name dv st l).1.1, (lStep b fm name dv st l).1.2) := by
  unfold mStep lStep
  cases chosen st.2 (layerCandidates b st.2 name l) with
  | none => rfl
  | some p =>
    simp only []
    rw [← plain_addFileLayer, log_addFileLayer, show RegCall.file l.name p = (LogCall.file l.name p).plain from rfl, plain_offer]
    cases (LogCall.file l.name p).offer b fm with
    | none =>
      simp only [Option.map_none, Option.isSome_none]
      rw [← plain_initLayer, initLayerLog_not]
    | some e =>
      simp only [Option.map_some, Option.isSome_some]
      rw [plain_initLayer]

theorem lRun_plain (b : Build) (fm : Formats) (name : String) (dv : Value) (ls : List LayerSpec) : ∀ st : LogConfig × World,
    ls.foldl (mStep b fm name dv) (plainConfig st.1, st.2) = (plainConfig (lRun b fm name dv st ls).1.1, (lRun b fm name dv st ls).1.2) := by
  induction ls with
  | nil => intro st; rfl
  | cons l ls ih =>
    intro st
    rw [List.foldl_cons, lStep_mStep, ih, lRun]

theorem initLayerLog_spec {b : Build} {fm : Formats} {c : LogConfig} {w : World} {p : OsStr} {l : LayerSpec} {dv : Value} {f : FileExtension} {cd : Codec}
    (hf : FormatNamed b fm p f cd) :
    (initLayerLog w (c.pushLayer l.name (.file f cd p)).1 true p l dv).2 =
      if l.init = some true ∧ w.pathExists p = false then
        writeRecords ((c.getLayer l.name).getD (.file f cd p)) ++
          (match (((c.getLayer l.name).getD (.file f cd p)).toLayer.writeValue w dv).1 with | .ok () => [] | .error e => [.initError l.name e])
      else [] := by
  unfold initLayerLog
  cases hi : l.init with
  | none => simp
  | some flag =>
    simp only []
    by_cases h : w.pathExists p = false ∧ flag = true
    · obtain ⟨h1, rfl⟩ := h
      rw [if_pos (by simp [h1]), if_pos ⟨rfl, h1⟩, (log_pushLayer c l.name _).2]
      simp only []
      generalize (c.getLayer l.name).getD (.file f cd p) = x
      rw [← log_writeRecords x w dv, ← log_writeValue]
      generalize x.writeValue w dv = r
      obtain ⟨⟨r, w'⟩, lg⟩ := r
      cases r with
      | ok => simp
      | error e => rfl
    · have hb : ¬ (true && !w.pathExists p && flag) = true := by
        intro h'
        simp only [Bool.true_and, Bool.and_eq_true, Bool.not_eq_true'] at h'
        exact h h'
      rw [if_neg hb, if_neg (fun h' => h ⟨h'.2, Option.some.inj h'.1⟩)]

theorem named_iff {b : Build} {fm : Formats} {c : LogConfig} {n : String} {p : OsStr} {f : FileExtension} {cd : Codec} (hf : FormatNamed b fm p f cd) (x : LogLayer) :
    Named b fm c n p x ↔ x = (c.getLayer n).getD (.file f cd p) := by
  constructor
  · intro h
    cases h with
    | old _ h => rw [h]; rfl
    | new g cd' h hf' =>
      obtain ⟨rfl, rfl⟩ := formatOf_unique hf hf'
      rw [h]; rfl
  · rintro rfl
    cases h : c.getLayer n with
    | none => exact .new f cd h hf
    | some y => exact .old y h

theorem candidates_nil {b : Build} {w : World} {name : String} {l : LayerSpec} :
    layerCandidates b w name l = [] ↔ (∀ d ∈ l.dirs, d.toPathBuf w = none) ∨ (b.toml = false ∧ b.json = false) := by
  unfold layerCandidates enabled
  rw [List.flatMap_eq_nil_iff]
  constructor
  · intro h
    by_cases hd : ∀ d ∈ l.dirs, d.toPathBuf w = none
    · exact Or.inl hd
    · right
      obtain ⟨d, hd1, hd2⟩ : ∃ d, d ∈ l.dirs ∧ d.toPathBuf w ≠ none := by
        apply Classical.byContradiction
        intro hn
        exact hd fun d hd1 => Classical.byContradiction fun hd2 => hn ⟨d, hd1, hd2⟩
      obtain ⟨a, ha⟩ := Option.ne_none_iff_exists'.1 hd2
      have := h a (List.mem_filterMap.2 ⟨d, hd1, ha⟩)
      revert this
      cases b.toml <;> cases b.json <;> simp
  · rintro (h | ⟨h1, h2⟩) a ha
    · obtain ⟨d, hd, he⟩ := List.mem_filterMap.1 ha
      rw [h d hd] at he; cases he
    · simp [h1, h2]

theorem lStep_records (b : Build) (fm : Formats) (name : String) (dv : Value) (c : LogConfig) (w : World) (l : LayerSpec) (log : List LogRecord) :
    MacroRecords b fm name dv c w l log ↔ log = (lStep b fm name dv (c, w) l).2 := by
  have hnil : (∀ d ∈ l.dirs, d.toPathBuf w = none) → chosen w (layerCandidates b w name l) = none := fun h => chosen_none.2 (candidates_nil.2 (Or.inl h))
  constructor
  · intro h
    unfold lStep
    cases h with
    | nowhere h => simp only [hnil h]; rw [searchFailure, if_pos h]
    | noFormat d hd h h1 h2 =>
      have : chosen w (layerCandidates b w name l) = none := chosen_none.2 (candidates_nil.2 (Or.inr ⟨h1, h2⟩))
      simp only [this]; rw [searchFailure, if_neg (fun hh => h (hh d hd))]
    | refused p hp h =>
      simp only [hp]
      rcases formatOf_offer (b := b) (fm := fm) (n := l.name) (p := p) with ⟨h1, -⟩ | ⟨f, cd, -, h2⟩
      · rw [h1]
      · exact absurd h2 (h f cd)
    | added p hp f cd h hi =>
      simp only [hp]
      rcases formatOf_offer (b := b) (fm := fm) (n := l.name) (p := p) with ⟨-, h1⟩ | ⟨g, cd', h1, h2⟩
      · exact absurd h (h1 f cd)
      · rw [h1]
        simp only []
        have hs := initLayerLog_spec (c := c) (w := w) (l := l) (dv := dv) h2
        rw [if_neg] at hs
        · rw [hs, (log_pushLayer _ _ _).1, List.append_nil]
        · rintro ⟨i1, i2⟩
          rcases hi with hi | hi
          · exact hi i1
          · rw [hi] at i2; cases i2
    | wrote p hp f cd h hi hx x hn w' hw =>
      simp only [hp]
      rcases formatOf_offer (b := b) (fm := fm) (n := l.name) (p := p) with ⟨-, h1⟩ | ⟨g, cd', h1, h2⟩
      · exact absurd h (h1 f cd)
      · rw [h1]
        simp only []
        have hs := initLayerLog_spec (c := c) (w := w) (l := l) (dv := dv) h2
        rw [if_pos ⟨hi, hx⟩] at hs
        rw [hs, (log_pushLayer _ _ _).1, ← (named_iff h2 x).1 hn, hw]
        simp
    | failed p hp f cd h hi hx x hn w' e hw =>
      simp only [hp]
      rcases formatOf_offer (b := b) (fm := fm) (n := l.name) (p := p) with ⟨-, h1⟩ | ⟨g, cd', h1, h2⟩
      · exact absurd h (h1 f cd)
      · rw [h1]
        simp only []
        have hs := initLayerLog_spec (c := c) (w := w) (l := l) (dv := dv) h2
        rw [if_pos ⟨hi, hx⟩] at hs
        rw [hs, (log_pushLayer _ _ _).1, ← (named_iff h2 x).1 hn, hw]
        simp
  · rintro rfl
    unfold lStep
    cases hp : chosen w (layerCandidates b w name l) with
    | none =>
      simp only []
      rw [searchFailure]
      by_cases h : ∀ d ∈ l.dirs, d.toPathBuf w = none
      · rw [if_pos h]; exact .nowhere h
      · rw [if_neg h]
        obtain ⟨d, hd1, hd2⟩ : ∃ d, d ∈ l.dirs ∧ d.toPathBuf w ≠ none := by
          apply Classical.byContradiction
          intro hn
          exact h fun d hd1 => Classical.byContradiction fun hd2 => hn ⟨d, hd1, hd2⟩
        rcases candidates_nil.1 (chosen_none.1 hp) with h' | ⟨h1, h2⟩
        · exact absurd h' h
        · exact .noFormat d hd1 hd2 h1 h2
    | some p =>
      simp only []
      rcases formatOf_offer (b := b) (fm := fm) (n := l.name) (p := p) with ⟨h1, h2⟩ | ⟨f, cd, h1, h2⟩
      · rw [h1]; exact .refused p hp h2
      · rw [h1]
        simp only []
        rw [initLayerLog_spec h2, (log_pushLayer _ _ _).1]
        by_cases hi : l.init = some true ∧ w.pathExists p = false
        · rw [if_pos hi]
          generalize hx : (c.getLayer l.name).getD (.file f cd p) = x
          have hn := (named_iff h2 x).2 hx.symm
          cases hw : x.toLayer.writeValue w dv with
          | mk r w' =>
            cases r with
            | ok =>
              simp only [List.append_nil]
              exact .wrote p hp f cd h2 hi.1 hi.2 x hn w' hw
            | error e =>
              simp only [← List.append_assoc]
              exact .failed p hp f cd h2 hi.1 hi.2 x hn w' e hw
        · rw [if_neg hi, List.append_nil]
          refine .added p hp f cd h2 ?_
          by_cases h : l.init = some true
          · right
            cases hpe : w.pathExists p with
            | true => rfl
            | false => exact absurd ⟨h, hpe⟩ hi
          · exact Or.inl h

/-! ## The layers -/

theorem plain_start (b : Build) (fm : Formats) (dv : Value) : plainConfig (startLog dv) = register b fm [.memory "default" dv] := rfl

theorem lRun_same (b : Build) (fm : Formats) (name : String) (dv : Value) (w : World) (ls : List LayerSpec) :
    SameEnv w (lRun b fm name dv (startLog dv, w) ls).1.2 := by
  obtain ⟨paths, w', h1, h2, -⟩ := foldl_mStep b fm name dv ls [.memory "default" dv] w (by intro c hc; simp at hc; subst hc; trivial)
  have := lRun_plain b fm name dv ls (startLog dv, w)
  simp only [plain_start b fm] at this
  rw [h1] at this
  rw [← (Prod.ext_iff.1 this).2]; exact h2

theorem SameEnv.toPathBuf {w w' : World} (h : SameEnv w w') : OSDirectory.toPathBuf w' = OSDirectory.toPathBuf w := by
  funext d; unfold OSDirectory.toPathBuf; rw [h.baseDirs, h.cwd]

/-- **C109**, logging changes nothing: the macro makes the configuration, and leaves the files, of which the other properties speak. -/
theorem C109_same (b : Build) (fm : Formats) (w : World) (args : MacroArgs) :
    ∃ c w' log, createConfigLog b fm w args = (.ok (c, w'), log) ∧ createConfig b fm w args = .ok (plainConfig c, w') := by
  obtain ⟨dv, h1, h2⟩ := createConfigLog_eq b fm w args
  obtain ⟨dv', h1', h3⟩ := createConfig_eq b fm w args
  rw [h1] at h1'; cases h1'
  have := lRun_plain b fm args.fileName dv args.layers (startLog dv, w)
  simp only [plain_start b fm] at this
  rw [this] at h3
  cases he : args.env with
  | none =>
    rw [he] at h2 h3
    exact ⟨_, _, _, h2, h3⟩
  | some pre =>
    rw [he] at h2 h3
    refine ⟨_, _, _, h2, ?_⟩
    rw [h3]
    simp only [Option.map_some, Option.toList_some, List.foldl_cons, List.foldl_nil]
    congr 2
    exact (plain_pushLayer _ "environment" (.environment (trimStr pre))).symm

/-- **C109**, everything the macro writes: nothing without layers; each layer adds what `MacroRecords` says of it, in the state that the layers before it left; the environment adds only that its name
is taken, if a layer is called `environment`. -/
theorem C109_log (b : Build) (fm : Formats) (w : World) (args : MacroArgs) (dv : Value) (hdv : valueMapMacro args.default = some dv) :
    (createConfigLog b fm w { args with layers := [], env := none }).2 = [] ∧
    (∀ ls l, ∃ c1 w1 log1 st, createConfigLog b fm w { args with layers := ls, env := none } = (.ok (c1, w1), log1) ∧
      ∀ log, createConfigLog b fm w { args with layers := ls ++ [l], env := none } = (.ok st, log1 ++ log) ↔ MacroRecords b fm args.fileName dv c1 w1 l log) ∧
    (∀ pre, ∃ c1 w1 log1 st, createConfigLog b fm w { args with env := none } = (.ok (c1, w1), log1) ∧
      createConfigLog b fm w { args with env := some pre } =
        (.ok st, log1 ++ if c1.getLayer "environment" = none then [] else [.layerExists "environment"])) := by
  have key : ∀ ls, createConfigLog b fm w { args with layers := ls, env := none } =
      (.ok (lRun b fm args.fileName dv (startLog dv, w) ls).1, (lRun b fm args.fileName dv (startLog dv, w) ls).2) := by
    intro ls
    obtain ⟨dv', h1, h2⟩ := createConfigLog_eq b fm w { args with layers := ls, env := none }
    rw [hdv] at h1; cases h1
    exact h2
  refine ⟨by rw [key]; rfl, ?_, ?_⟩
  · intro ls l
    refine ⟨_, _, _, (lStep b fm args.fileName dv (lRun b fm args.fileName dv (startLog dv, w) ls).1 l).1, key ls, ?_⟩
    intro log
    rw [key, lRun_append, lStep_records]
    simp only [Prod.mk.injEq, true_and, List.append_cancel_left_eq]
    exact eq_comm
  · intro pre
    refine ⟨_, _, _, (((lRun b fm args.fileName dv (startLog dv, w) args.layers).1.1.addEnvironmentLayer "environment" pre).1,
      (lRun b fm args.fileName dv (startLog dv, w) args.layers).1.2), key args.layers, ?_⟩
    · obtain ⟨dv', h1, h2⟩ := createConfigLog_eq b fm w { args with env := some pre }
      rw [hdv] at h1; cases h1
      rw [h2]
      simp only []
      rw [show (LogConfig.addEnvironmentLayer _ "environment" pre).2 = _ from (log_pushLayer _ "environment" _).1]

/-- The layers of a run, each with the state before it: what it wrote is in the log, and nothing else is. -/
theorem lRun_mem (b : Build) (fm : Formats) (name : String) (dv : Value) (w : World) (ls : List LayerSpec) (r : LogRecord) :
    r ∈ (lRun b fm name dv (startLog dv, w) ls).2 ↔
      ∃ before l after c1 w1 log, ls = before ++ l :: after ∧ SameEnv w w1 ∧ (lRun b fm name dv (startLog dv, w) before).1 = (c1, w1) ∧
        MacroRecords b fm name dv c1 w1 l log ∧ r ∈ log := by
  induction ls using List.reverseRecOn with
  | nil =>
    constructor
    · intro h; cases h
    · rintro ⟨before, l, after, -, -, -, h, -⟩
      cases before <;> cases h
  | append_singleton ls l ih =>
    rw [lRun_append, List.mem_append, ih]
    constructor
    · rintro (⟨before, x, after, c1, w1, log, rfl, h⟩ | h)
      · exact ⟨before, x, after ++ [l], c1, w1, log, by simp, h⟩
      · exact ⟨ls, l, [], _, _, _, rfl, lRun_same b fm name dv w ls, rfl, (lStep_records ..).2 rfl, h⟩
    · rintro ⟨before, x, after, c1, w1, log, he, h1, h2, h3, h4⟩
      rcases List.eq_nil_or_concat after with rfl | ⟨after, y, rfl⟩
      · right
        obtain ⟨rfl, he⟩ := List.append_inj' he rfl
        obtain rfl : l = x := by simpa using he
        rw [lStep_records] at h3
        rw [h2, ← h3]; exact h4
      · left
        rw [List.concat_eq_append, ← List.cons_append, ← List.append_assoc] at he
        obtain ⟨rfl, -⟩ := List.append_inj' he rfl
        exact ⟨before, x, after, c1, w1, log, rfl, h1, h2, h3, h4⟩

theorem createLog_mem {b : Build} {fm : Formats} {w : World} {args : MacroArgs} {dv : Value} (hdv : valueMapMacro args.default = some dv) (r : LogRecord)
    (hr : r ≠ .layerExists "environment") :
    r ∈ (createConfigLog b fm w args).2 ↔ r ∈ (lRun b fm args.fileName dv (startLog dv, w) args.layers).2 := by
  obtain ⟨dv', h1, h2⟩ := createConfigLog_eq b fm w args
  rw [hdv] at h1; cases h1
  rw [h2]
  cases args.env with
  | none => exact Iff.rfl
  | some pre =>
    simp only [List.mem_append]
    rw [show (LogConfig.addEnvironmentLayer _ "environment" pre).2 = _ from (log_pushLayer _ "environment" _).1]
    constructor
    · rintro (h | h)
      · exact h
      · split at h
        · cases h
        · simp at h; exact absurd h hr
    · exact Or.inl

theorem unresolved_same {w w1 : World} (h : SameEnv w w1) (l : LayerSpec) : unresolved w1 l = unresolved w l := by
  unfold unresolved; rw [SameEnv.toPathBuf h]

theorem mem_unresolved {w : World} {l : LayerSpec} {r : LogRecord} : r ∈ unresolved w l ↔ ∃ d ∈ l.dirs, d.toPathBuf w = none ∧ r = .noDirectory d := by
  unfold unresolved
  rw [List.mem_map]
  constructor
  · rintro ⟨d, hd, rfl⟩
    rw [List.mem_filter] at hd
    exact ⟨d, hd.1, by simpa using hd.2, rfl⟩
  · rintro ⟨d, hd, h, rfl⟩
    exact ⟨d, List.mem_filter.2 ⟨hd, by simpa using h⟩, rfl⟩

theorem mem_taken {c : LogConfig} {n : String} {r : LogRecord} (h : r ∈ (if c.getLayer n = none then [] else [LogRecord.layerExists n])) : r = .layerExists n := by
  split at h
  · cases h
  · simpa using h

theorem mem_writeRecords {x : LogLayer} {r : LogRecord} (h : r ∈ writeRecords x) : ∃ f p, r = .writing f p := by
  cases x with
  | file f c p => exact ⟨f, p, by simpa [writeRecords] using h⟩
  | _ => cases h

theorem log_push_keeps {c : LogConfig} {n : String} {x : LogLayer} (h : c.getLayer n = some x) (m : String) (l : LogLayer) :
    (c.pushLayer m l).1.getLayer n = some x := by
  by_cases hm : m = n
  · subst hm; rw [(log_pushLayer c m l).2, h]; rfl
  · unfold LogConfig.pushLayer LogConfig.getLayer at *
    split
    · exact h
    · simp only []
      rw [hmGet_insert, if_neg hm]
      exact h

theorem lStep_keeps {b : Build} {fm : Formats} {name : String} {dv : Value} {st : LogConfig × World} {n : String} {x : LogLayer}
    (h : st.1.getLayer n = some x) (l : LayerSpec) : (lStep b fm name dv st l).1.1.getLayer n = some x := by
  unfold lStep
  split
  · exact h
  · split
    · exact h
    · exact log_push_keeps h _ _

theorem lRun_keeps {b : Build} {fm : Formats} {name : String} {dv : Value} {n : String} {x : LogLayer} (ls : List LayerSpec) : ∀ {st : LogConfig × World},
    st.1.getLayer n = some x → (lRun b fm name dv st ls).1.1.getLayer n = some x := by
  induction ls with
  | nil => intro st h; exact h
  | cons l ls ih => intro st h; rw [lRun]; exact ih (lStep_keeps h l)

theorem lRun_appendMany (b : Build) (fm : Formats) (name : String) (dv : Value) (ls ms : List LayerSpec) : ∀ st,
    (lRun b fm name dv st (ls ++ ms)).1 = (lRun b fm name dv (lRun b fm name dv st ls).1 ms).1 := by
  induction ls with
  | nil => intro st; rfl
  | cons x ls ih => intro st; rw [List.cons_append, lRun, lRun, ih]

theorem created_getLayer {b : Build} {fm : Formats} {w : World} {args : MacroArgs} {dv : Value} (hdv : valueMapMacro args.default = some dv) {n : String} {x : LogLayer}
    (h : (lRun b fm args.fileName dv (startLog dv, w) args.layers).1.1.getLayer n = some x) {c : LogConfig} {w' : World} {log : List LogRecord}
    (hc : createConfigLog b fm w args = (.ok (c, w'), log)) : c.getLayer n = some x := by
  obtain ⟨dv', h1, h2⟩ := createConfigLog_eq b fm w args
  rw [hdv] at h1; cases h1
  rw [hc] at h2
  cases he : args.env with
  | none => rw [he] at h2; simp only [Prod.mk.injEq, Outcome.ok.injEq] at h2; rw [← h2.1] at h; exact h
  | some pre =>
    rw [he] at h2
    simp only [Prod.mk.injEq, Outcome.ok.injEq] at h2
    rw [h2.1.1]; exact log_push_keeps h _ _

/-- What can stand in the records of one layer. -/
theorem macroRecords_mem {b : Build} {fm : Formats} {name : String} {dv : Value} {c : LogConfig} {w : World} {l : LayerSpec} {log : List LogRecord}
    (h : MacroRecords b fm name dv c w l log) (r : LogRecord) (hr : r ∈ log) :
    (∃ d ∈ l.dirs, d.toPathBuf w = none ∧ r = .noDirectory d) ∨ (layerCandidates b w name l = [] ∧ r = .searchError (searchFailure w l)) ∨
    r = .layerExists l.name ∨ (∃ f p, r = .writing f p) ∨
    ∃ p x e w', chosen w (layerCandidates b w name l) = some p ∧ l.init = some true ∧ w.pathExists p = false ∧ Named b fm c l.name p x ∧
      (∃ f cd, FormatNamed b fm p f cd) ∧ x.toLayer.writeValue w dv = (.error e, w') ∧ r = .initError l.name e := by
  cases h with
  | nowhere h =>
    rcases List.mem_append.1 hr with hr | hr
    · exact Or.inl (mem_unresolved.1 hr)
    · right; left
      simp at hr; subst hr
      exact ⟨candidates_nil.2 (Or.inl h), by rw [searchFailure, if_pos h]⟩
  | noFormat d hd h h1 h2 =>
    rcases List.mem_append.1 hr with hr | hr
    · exact Or.inl (mem_unresolved.1 hr)
    · right; left
      simp at hr; subst hr
      exact ⟨candidates_nil.2 (Or.inr ⟨h1, h2⟩), by rw [searchFailure, if_neg (fun hh => h (hh d hd))]⟩
  | refused p hp h => exact Or.inl (mem_unresolved.1 hr)
  | added p hp f cd h hi =>
    rcases List.mem_append.1 hr with hr | hr
    · exact Or.inl (mem_unresolved.1 hr)
    · exact Or.inr (Or.inr (Or.inl (mem_taken hr)))
  | wrote p hp f cd h hi hx x hn w' hw =>
    rcases List.mem_append.1 hr with hr | hr
    · rcases List.mem_append.1 hr with hr | hr
      · exact Or.inl (mem_unresolved.1 hr)
      · exact Or.inr (Or.inr (Or.inl (mem_taken hr)))
    · exact Or.inr (Or.inr (Or.inr (Or.inl (mem_writeRecords hr))))
  | failed p hp f cd h hi hx x hn w' e hw =>
    rcases List.mem_append.1 hr with hr | hr
    · rcases List.mem_append.1 hr with hr | hr
      · rcases List.mem_append.1 hr with hr | hr
        · exact Or.inl (mem_unresolved.1 hr)
        · exact Or.inr (Or.inr (Or.inl (mem_taken hr)))
      · exact Or.inr (Or.inr (Or.inr (Or.inl (mem_writeRecords hr))))
    · refine Or.inr (Or.inr (Or.inr (Or.inr ⟨p, x, e, w', hp, hi, hx, hn, ⟨f, cd, h⟩, hw, by simpa using hr⟩)))

/-- And what must. -/
theorem macroRecords_has {b : Build} {fm : Formats} {name : String} {dv : Value} {c : LogConfig} {w : World} {l : LayerSpec} {log : List LogRecord}
    (h : MacroRecords b fm name dv c w l log) :
    (∀ d ∈ l.dirs, d.toPathBuf w = none → .noDirectory d ∈ log) ∧ (layerCandidates b w name l = [] → .searchError (searchFailure w l) ∈ log) := by
  have hne : ∀ {p}, chosen w (layerCandidates b w name l) = some p → layerCandidates b w name l ≠ [] := by
    intro p hp h; rw [chosen_none.2 h] at hp; cases hp
  constructor
  · intro d hd hn
    have hu : LogRecord.noDirectory d ∈ unresolved w l := mem_unresolved.2 ⟨d, hd, hn, rfl⟩
    cases h <;> simp [hu]
  · intro hc
    cases h with
    | nowhere h => rw [searchFailure, if_pos h]; simp
    | noFormat d hd h h1 h2 => rw [searchFailure, if_neg (fun hh => h (hh d hd))]; simp
    | refused p hp => exact absurd hc (hne hp)
    | added p hp => exact absurd hc (hne hp)
    | wrote p hp => exact absurd hc (hne hp)
    | failed p hp => exact absurd hc (hne hp)

theorem searchFailure_same {w w1 : World} (h : SameEnv w w1) (l : LayerSpec) : searchFailure w1 l = searchFailure w l := by
  unfold searchFailure; rw [SameEnv.toPathBuf h]

/-- **C109**, the warnings: there is one of each directory that cannot be told; of each layer none of whose directories can be told, and of each layer if no format is enabled, that the search failed; of each layer,
by name, whose initial file could not be written, with the error. Nothing else is warned of. -/
theorem C109_warnings (b : Build) (fm : Formats) (w : World) (args : MacroArgs) :
    (∀ d, .noDirectory d ∈ (createConfigLog b fm w args).2 ↔ ∃ l ∈ args.layers, d ∈ l.dirs ∧ d.toPathBuf w = none) ∧
    (∀ e, .searchError e ∈ (createConfigLog b fm w args).2 ↔ ∃ l ∈ args.layers,
      ((∀ d ∈ l.dirs, d.toPathBuf w = none) ∧ e = .fileFinderError .noFoldersDefined) ∨
      ((∃ d ∈ l.dirs, d.toPathBuf w ≠ none) ∧ b.toml = false ∧ b.json = false ∧ e = .fileFinderError .noExtensionsDefined)) ∧
    (∀ n e, .initError n e ∈ (createConfigLog b fm w args).2 → ∃ l ∈ args.layers, l.name = n ∧ l.init = some true ∧
      ∃ c w' log dv x w1, createConfigLog b fm w args = (.ok (c, w'), log) ∧ valueMapMacro args.default = some dv ∧ c.getLayer n = some x ∧
        (∃ p ∈ layerCandidates b w args.fileName l, w1.pathExists p = false) ∧ (x.toLayer.writeValue w1 dv).1 = .error e) ∧
    (∀ r ∈ warnings (createConfigLog b fm w args).2, (∃ d, r = .noDirectory d) ∨ (∃ e, r = .searchError e) ∨ ∃ n e, r = .initError n e) := by
  obtain ⟨dv, hdv, -⟩ := createConfigLog_eq b fm w args
  have split : ∀ l ∈ args.layers, ∃ before after, args.layers = before ++ l :: after := fun l hl => List.append_of_mem hl
  refine ⟨?_, ?_, ?_, ?_⟩
  · intro d
    rw [createLog_mem hdv _ (by simp), lRun_mem]
    constructor
    · rintro ⟨before, l, after, c1, w1, log, he, hs, -, h3, h4⟩
      rcases macroRecords_mem h3 _ h4 with ⟨d', hd, hn, e⟩ | ⟨-, e⟩ | e | ⟨_, _, e⟩ | ⟨_, _, _, _, _, _, _, _, _, _, e⟩
      · cases e; rw [SameEnv.toPathBuf hs] at hn; exact ⟨l, by rw [he]; simp, hd, hn⟩
      all_goals cases e
    · rintro ⟨l, hl, hd, hn⟩
      obtain ⟨before, after, he⟩ := split l hl
      have hs := lRun_same b fm args.fileName dv w before
      refine ⟨before, l, after, _, _, _, he, hs, rfl, (lStep_records ..).2 rfl, ?_⟩
      refine (macroRecords_has ((lStep_records b fm args.fileName dv _ _ l _).2 rfl)).1 d hd ?_
      rw [SameEnv.toPathBuf hs]; exact hn
  · intro e
    rw [createLog_mem hdv _ (by simp), lRun_mem]
    have hcase : ∀ l : LayerSpec, (layerCandidates b w args.fileName l = [] ∧ e = searchFailure w l) ↔
        ((∀ d ∈ l.dirs, d.toPathBuf w = none) ∧ e = .fileFinderError .noFoldersDefined) ∨
        ((∃ d ∈ l.dirs, d.toPathBuf w ≠ none) ∧ b.toml = false ∧ b.json = false ∧ e = .fileFinderError .noExtensionsDefined) := by
      intro l
      rw [candidates_nil, searchFailure]
      by_cases h : ∀ d ∈ l.dirs, d.toPathBuf w = none
      · rw [if_pos h]
        constructor
        · rintro ⟨-, e⟩; exact Or.inl ⟨h, e⟩
        · rintro (⟨-, e⟩ | ⟨⟨d, hd, hn⟩, -⟩)
          · exact ⟨Or.inl h, e⟩
          · exact absurd (h d hd) hn
      · rw [if_neg h]
        constructor
        · rintro ⟨h' | ⟨h1, h2⟩, e⟩
          · exact absurd h' h
          · right
            refine ⟨?_, h1, h2, e⟩
            apply Classical.byContradiction
            intro hn
            exact h fun d hd1 => Classical.byContradiction fun hd2 => hn ⟨d, hd1, hd2⟩
        · rintro (⟨h', -⟩ | ⟨-, h1, h2, e⟩)
          · exact absurd h' h
          · exact ⟨Or.inr ⟨h1, h2⟩, e⟩
    simp only [← hcase]
    constructor
    · rintro ⟨before, l, after, c1, w1, log, he, hs, -, h3, h4⟩
      rcases macroRecords_mem h3 _ h4 with ⟨d', hd, hn, e'⟩ | ⟨hc, e'⟩ | e' | ⟨_, _, e'⟩ | ⟨_, _, _, _, _, _, _, _, _, _, e'⟩
      · cases e'
      · cases e'
        rw [hs.candidates] at hc
        exact ⟨l, by rw [he]; simp, hc, by rw [searchFailure_same hs]⟩
      all_goals cases e'
    · rintro ⟨l, hl, hc, rfl⟩
      obtain ⟨before, after, he⟩ := split l hl
      have hs := lRun_same b fm args.fileName dv w before
      refine ⟨before, l, after, _, _, _, he, hs, rfl, (lStep_records ..).2 rfl, ?_⟩
      rw [← searchFailure_same hs]
      refine (macroRecords_has ((lStep_records b fm args.fileName dv _ _ l _).2 rfl)).2 ?_
      rw [hs.candidates]; exact hc
  · intro n e h
    rw [createLog_mem hdv _ (by simp), lRun_mem] at h
    obtain ⟨before, l, after, c1, w1, log, he, hs, hst, h3, h4⟩ := h
    rcases macroRecords_mem h3 _ h4 with ⟨d', hd, hn, e'⟩ | ⟨hc, e'⟩ | e' | ⟨_, _, e'⟩ | ⟨p, x, e2, w', hp, hi, hx, hn, hfmt, hw, e'⟩
    · cases e'
    · cases e'
    · cases e'
    · cases e'
    · cases e'
      obtain ⟨c, w2, lg, hcc, -⟩ := C109_same b fm w args
      refine ⟨l, by rw [he]; simp, rfl, hi, c, w2, lg, dv, x, w1, hcc, hdv, ?_, ⟨p, ?_, hx⟩, by rw [hw]⟩
      · refine created_getLayer hdv ?_ hcc
        rw [he, lRun_appendMany, hst, lRun]
        apply lRun_keeps
        obtain ⟨f, cd, hf⟩ := hfmt
        unfold lStep
        simp only [hp]
        rcases formatOf_offer (b := b) (fm := fm) (n := l.name) (p := p) with ⟨-, h1⟩ | ⟨g, cd', h1, h2⟩
        · exact absurd hf (h1 f cd)
        · rw [h1]
          simp only []
          rw [(log_pushLayer _ _ _).2, ← (named_iff h2 x).1 hn]
      · rw [← hs.candidates]; exact chosen_mem hp
  · intro r hr
    unfold warnings at hr
    rw [List.mem_filter] at hr
    obtain ⟨hr, hw⟩ := hr
    have hwl : r.level = .warn := by simpa using hw
    have hne : r ≠ .layerExists "environment" := by rintro rfl; simp [LogRecord.level] at hwl
    rw [createLog_mem hdv _ hne, lRun_mem] at hr
    obtain ⟨before, l, after, c1, w1, log, he, hs, -, h3, h4⟩ := hr
    rcases macroRecords_mem h3 _ h4 with ⟨d', hd, hn, e'⟩ | ⟨hc, e'⟩ | e' | ⟨_, _, e'⟩ | ⟨_, _, _, _, _, _, _, _, _, _, e'⟩
    · exact Or.inl ⟨_, e'⟩
    · exact Or.inr (Or.inl ⟨_, e'⟩)
    · subst e'; simp [LogRecord.level] at hwl
    · subst e'; simp [LogRecord.level] at hwl
    · exact Or.inr (Or.inr ⟨_, _, e'⟩)

/-! ## Silence -/

theorem warnings_nil_append {a b : List LogRecord} (h : warnings (a ++ b) = []) : warnings a = [] ∧ warnings b = [] := by
  rw [warnings_append] at h; exact List.append_eq_nil_iff.1 h

theorem warnings_nil_mem {a : List LogRecord} (h : warnings a = []) {r : LogRecord} (hr : r ∈ a) : r.level ≠ .warn := by
  intro hl
  have : r ∈ warnings a := List.mem_filter.2 ⟨hr, by simpa using hl⟩
  rw [h] at this; cases this

theorem candidate_named {b : Build} {fm : Formats} {w : World} {name : String} {l : LayerSpec} (hp : PlainName name) {p : OsStr}
    (h : p ∈ layerCandidates b w name l) : ∃ f cd, FormatNamed b fm p f cd := by
  unfold layerCandidates at h
  obtain ⟨folder, -, h⟩ := List.mem_flatMap.1 h
  obtain ⟨ext, he, rfl⟩ := List.mem_map.1 h
  unfold enabled at he
  rcases List.mem_append.1 he with he | he
  · split at he
    · rename_i hb
      simp at he; subst he
      exact ⟨_, _, .toml hb ((C50_extension folder name "toml" (by decide) (by decide) (by decide)).2 hp)⟩
    · cases he
  · split at he
    · rename_i hb
      simp at he; subst he
      exact ⟨_, _, .json hb ((C50_extension folder name "json" (by decide) (by decide) (by decide)).2 hp)⟩
    · cases he

/-- A whole file of the defaults, made for a layer that asked for it. -/
def Whole (b : Build) (fm : Formats) (w : World) (name : String) (dv : Value) (ls : List LayerSpec) (s : Nat) (bytes : List UInt8) : Prop :=
  ∃ l ∈ ls, l.init = some true ∧ ∃ p, (layerCandidates b w name l).head? = some p ∧ s = w.locate p ∧
    ∃ f cd text, FormatNamed b fm p f cd ∧ cd.print dv.toData = .ok text ∧ bytes = utf8 text

theorem silent_run (b : Build) (fm : Formats) (w : World) (name : String) (hp : PlainName name) (dv : Value) (ls : List LayerSpec) :
    (ls.map LayerSpec.name).Nodup → (∀ l ∈ ls, l.name ≠ "default") → warnings (lRun b fm name dv (startLog dv, w) ls).2 = [] →
    Created (Whole b fm w name dv ls) w (lRun b fm name dv (startLog dv, w) ls).1.2 ∧
    (∀ l ∈ ls, (∀ d ∈ l.dirs, d.toPathBuf w ≠ none) ∧ ∃ p ∈ layerCandidates b w name l, ∃ f cd, FormatNamed b fm p f cd ∧
      (lRun b fm name dv (startLog dv, w) ls).1.1.getLayer l.name = some (.file f cd p) ∧
      (l.init = some true → (lRun b fm name dv (startLog dv, w) ls).1.2.pathExists p = true)) ∧
    ∀ n, n ≠ "default" → n ∉ ls.map LayerSpec.name → (lRun b fm name dv (startLog dv, w) ls).1.1.getLayer n = none := by
  induction ls using List.reverseRecOn with
  | nil =>
    intro _ _ _
    refine ⟨Created.refl _ _, by simp, ?_⟩
    intro n hn _
    show hmGet [("default", _)] n = none
    simp only [hmGet]; rw [if_neg (fun e => hn e.symm)]
  | append_singleton ls l ih =>
    intro hnd hdef hq
    rw [List.map_append, List.nodup_append] at hnd
    rw [lRun_append] at hq
    obtain ⟨q1, q2⟩ := warnings_nil_append hq
    obtain ⟨i1, i2, i3⟩ := ih hnd.1 (fun x hx => hdef x (by simp [hx])) q1
    have hlnew : l.name ∉ ls.map LayerSpec.name := fun hm => hnd.2.2 _ hm l.name (by simp) rfl
    have hg := i3 l.name (hdef l (by simp)) hlnew
    rw [lRun_append]
    generalize hst : (lRun b fm name dv (startLog dv, w) ls).1 = st at *
    obtain ⟨c1, w1⟩ := st
    simp only at i1 i2 i3 hg
    have hs : SameEnv w w1 := i1.same
    have hres : ∀ d ∈ l.dirs, d.toPathBuf w ≠ none := by
      intro d hd hn
      have := (macroRecords_has ((lStep_records b fm name dv c1 w1 l _).2 rfl)).1 d hd (by rw [SameEnv.toPathBuf hs]; exact hn)
      exact warnings_nil_mem q2 this rfl
    have hcand : layerCandidates b w1 name l ≠ [] := by
      intro hc
      have := (macroRecords_has ((lStep_records b fm name dv c1 w1 l _).2 rfl)).2 hc
      exact warnings_nil_mem q2 this rfl
    have hpn : chosen w1 (layerCandidates b w1 name l) ≠ none := fun e => hcand (chosen_none.1 e)
    obtain ⟨p, hpc⟩ := Option.ne_none_iff_exists'.1 hpn
    have hpm := chosen_mem hpc
    obtain ⟨f, cd, hf⟩ := candidate_named (b := b) (fm := fm) hp hpm
    obtain ⟨g, cd', ho, hf'⟩ : ∃ g cd', (LogCall.file l.name p).offer b fm = some (l.name, .file g cd' p) ∧ FormatNamed b fm p g cd' := by
      rcases formatOf_offer (b := b) (fm := fm) (n := l.name) (p := p) with ⟨-, h1⟩ | h
      · exact absurd hf (h1 f cd)
      · exact h
    obtain ⟨rfl, rfl⟩ := formatOf_unique hf hf'
    -- the step
    have hstep : (lStep b fm name dv (c1, w1) l).1 =
        ((c1.pushLayer l.name (.file f cd p)).1, (initLayerLog w1 (c1.pushLayer l.name (.file f cd p)).1 true p l dv).1) := by
      unfold lStep
      simp only [hpc, ho]
    have hlog : (lStep b fm name dv (c1, w1) l).2 = unresolved w1 l ++ (c1.pushLayer l.name (.file f cd p)).2 ++
        (initLayerLog w1 (c1.pushLayer l.name (.file f cd p)).1 true p l dv).2 := by
      unfold lStep
      simp only [hpc, ho]
    rw [hstep]
    have hget : (c1.pushLayer l.name (.file f cd p)).1.getLayer l.name = some (.file f cd p) := by rw [(log_pushLayer _ _ _).2, hg]; rfl
    -- the world
    generalize hw2 : (initLayerLog w1 (c1.pushLayer l.name (.file f cd p)).1 true p l dv).1 = w2
    have hworld : Created (Whole b fm w name dv (ls ++ [l])) w1 w2 ∧ (l.init = some true → w2.pathExists p = true) := by
      rw [plain_initLayer] at hw2
      by_cases hi : l.init = some true ∧ w1.pathExists p = false
      · obtain ⟨hi, hx⟩ := hi
        have hsp := initLayerLog_spec (c := c1) (w := w1) (l := l) (dv := dv) hf
        rw [if_pos ⟨hi, hx⟩, hg, Option.getD_none] at hsp
        rw [hlog, hsp] at q2
        have q3 := (warnings_nil_append (warnings_nil_append q2).2).2
        have hwr : w2 = ((Layer.file (textHandler cd) p).writeValue w1 dv).2 := by
          rw [← hw2]
          unfold initLayer
          rw [hi]
          simp only [hx, plain_getLayer, hget]
          rfl
        have hok : ((Layer.file (textHandler cd) p).writeValue w1 dv).1 = .ok () := by
          have e : (LogLayer.file f cd p).toLayer = Layer.file (textHandler cd) p := rfl
          rw [e] at q3
          revert q3
          generalize ((Layer.file (textHandler cd) p).writeValue w1 dv).1 = r
          cases r with
          | ok => intro _; rfl
          | error e => intro h; simp [warnings, LogRecord.level] at h
        obtain ⟨⟨c0, c2⟩, c3⟩ := C57_write cd w1 p dv (.ok ()) w2 (by
          show (Layer.file (textHandler cd) p).writeValue w1 dv = _
          exact Prod.ext hok hwr.symm)
        rcases c3 with ⟨_, _, h, _⟩ | ⟨_, _, _, _, h, _⟩ | ⟨_, _, _, _, _, _, _, h, _⟩ | ⟨text, r, h1, -, h3, h4⟩
        · cases h
        · cases h
        · cases h
        · have habs : ∃ ro, w1.disk (w1.locate p) = .absent ro := by
            unfold World.pathExists at hx
            split at hx
            · exact ⟨_, by assumption⟩
            · cases hx
          obtain ⟨ro, habs⟩ := habs
          have hr : r = none := by
            rcases h4 with h4 | ⟨bs, h4⟩
            · exact h4
            · rw [habs] at h4; cases h4
          subst hr
          have hro : ro = none := by
            cases ro with
            | none => rfl
            | some code =>
              exfalso
              have := (created_write cd w1 p dv hx).1.2 (w1.locate p)
              rw [← hwr, h3, habs] at this
              rcases this with h | ⟨h, -⟩ <;> cases h
          subst hro
          refine ⟨⟨c0, fun s => ?_⟩, fun _ => ?_⟩
          · by_cases hs' : s = w1.locate p
            · subst hs'
              right
              refine ⟨habs, _, ⟨l, by simp, hi, p, ?_, by rw [hs.locate], f, cd, text, hf, h1, rfl⟩, h3⟩
              rw [← hs.candidates]; exact (chosen_missing hpc hx).1
            · left; exact c2 s hs'
          · unfold World.pathExists
            rw [show w2.locate = w1.locate by rw [c0], h3]
      · have hw : w2 = w1 := by
          rw [← hw2]
          rcases initLayer_cases w1 (plainConfig (c1.pushLayer l.name (.file f cd p)).1) true p l dv with h | ⟨h1, -, h2, -⟩
          · exact h
          · exact absurd ⟨h1, h2⟩ hi
        subst hw
        refine ⟨Created.refl _ _, fun h => ?_⟩
        cases hpe : w2.pathExists p with
        | true => rfl
        | false => exact absurd ⟨h, hpe⟩ hi
    refine ⟨?_, ?_, ?_⟩
    · refine Created.trans (i1.mono ?_) hworld.1
      rintro s bs ⟨x, hx, h⟩
      exact ⟨x, by simp [hx], h⟩
    · intro x hx
      rcases List.mem_append.1 hx with hx | hx
      · obtain ⟨j1, q, j2, g', cd2, j3, j4, j5⟩ := i2 x hx
        exact ⟨j1, q, j2, g', cd2, j3, log_push_keeps j4 _ _, fun h => hworld.1.exists (j5 h)⟩
      · simp at hx; subst hx
        exact ⟨hres, p, by rw [← hs.candidates]; exact hpm, f, cd, hf, hget, hworld.2⟩
    · intro n h1 h2
      rw [List.map_append, List.mem_append, not_or] at h2
      have hne : l.name ≠ n := by
        intro e; apply h2.2; simp [e]
      have := i3 n h1 h2.1
      show (c1.pushLayer l.name (.file f cd p)).1.getLayer n = none
      unfold LogConfig.pushLayer LogConfig.getLayer at *
      split
      · exact this
      · simp only []
        rw [hmGet_insert, if_neg hne]; exact this

/-- **C109**, silence is success: with distinct names, none of them `default`, and a plain file name, if nothing is warned of, then every directory could be told, every layer is registered with one
of its candidate files and the format of that, the file of every layer to be initialised exists, and whatever file is new holds the whole text of the defaults. -/
theorem C109_quiet (b : Build) (fm : Formats) (w : World) (args : MacroArgs) (hp : PlainName args.fileName) (hn : (args.layers.map LayerSpec.name).Nodup)
    (hd : ∀ l ∈ args.layers, l.name ≠ "default") (hq : warnings (createConfigLog b fm w args).2 = []) :
    ∃ c w' dv, (createConfigLog b fm w args).1 = .ok (c, w') ∧ valueMapMacro args.default = some dv ∧
      (∀ l ∈ args.layers, (∀ d ∈ l.dirs, d.toPathBuf w ≠ none) ∧ ∃ p ∈ layerCandidates b w args.fileName l, ∃ f cd, FormatNamed b fm p f cd ∧
        c.getLayer l.name = some (.file f cd p) ∧ (l.init = some true → w'.pathExists p = true)) ∧
      Created (fun s bytes => ∃ l ∈ args.layers, l.init = some true ∧ ∃ p, (layerCandidates b w args.fileName l).head? = some p ∧ s = w.locate p ∧
        ∃ f cd text, FormatNamed b fm p f cd ∧ cd.print dv.toData = .ok text ∧ bytes = utf8 text) w w' := by
  obtain ⟨dv, h1, h2⟩ := createConfigLog_eq b fm w args
  obtain ⟨c, w', log, h3, -⟩ := C109_same b fm w args
  have hw : w' = (lRun b fm args.fileName dv (startLog dv, w) args.layers).1.2 ∧
      warnings (lRun b fm args.fileName dv (startLog dv, w) args.layers).2 = [] := by
    rw [h2] at hq
    rw [h3] at h2
    cases he : args.env with
    | none => rw [he] at h2 hq; simp only [Prod.mk.injEq, Outcome.ok.injEq] at h2; exact ⟨by rw [← h2.1], hq⟩
    | some pre =>
      rw [he] at h2 hq
      simp only [Prod.mk.injEq, Outcome.ok.injEq] at h2
      exact ⟨h2.1.2, (warnings_nil_append hq).1⟩
  obtain ⟨g1, g2, -⟩ := silent_run b fm w args.fileName hp dv args.layers hn hd hw.2
  refine ⟨c, w', dv, by rw [h3], h1, ?_, by rw [hw.1]; exact g1⟩
  intro l hl
  obtain ⟨j1, p, j2, f, cd, j3, j4, j5⟩ := g2 l hl
  exact ⟨j1, p, j2, f, cd, j3, created_getLayer h1 j4 h3, by rw [hw.1]; exact j5⟩

/-! ## What is not said -/

theorem splitFileName_dotdot (folder : OsStr) : splitFileName (pathJoin folder (os "..")) = none := by
  rw [pathJoin_eq (by decide)]
  have hd := dirLike_rev (dirLike_joinDir folder)
  generalize joinDir folder = d at hd
  unfold splitFileName
  have e : (d ++ os "..").reverse = dot :: dot :: d.reverse := by rw [List.reverse_append]; rfl
  have t : trimRev (dot :: dot :: d.reverse) = dot :: dot :: d.reverse := rfl
  rw [e]
  simp only [t]
  have hw : (dot :: dot :: d.reverse).takeWhile (fun x => decide (x ≠ sep)) = [dot, dot] := by
    rw [List.takeWhile_cons_of_pos (by decide), List.takeWhile_cons_of_pos (by decide)]
    cases hr : d.reverse with
    | nil => rfl
    | cons x r => rw [List.takeWhile_cons_of_neg (by rw [hd x (by rw [hr]; rfl)]; decide)]
  rw [hw, if_pos (by decide)]

/-- **C109**, but only then: a file name without a last component, such as `..`, gives no file layer at all, and neither a file nor a warning nor any other record, as long as all directories can be told
and some format is enabled. -/
theorem C109_swallowed (b : Build) (fm : Formats) (w : World) (args : MacroArgs) (hf : ∀ folder, splitFileName (pathJoin folder (os args.fileName)) = none)
    (he : args.env = none) (hb : b.toml = true ∨ b.json = true) (hd : ∀ l ∈ args.layers, l.dirs ≠ [] ∧ ∀ d ∈ l.dirs, d.toPathBuf w ≠ none) :
    ∃ dv, valueMapMacro args.default = some dv ∧
      createConfigLog b fm w args = (.ok (⟨["default"], [("default", .memory dv)]⟩, w), []) := by
  obtain ⟨dv, h1, h2⟩ := createConfigLog_eq b fm w args
  refine ⟨dv, h1, ?_⟩
  rw [h2, he]
  simp only []
  have hstart : startLog dv = ⟨["default"], [("default", .memory dv)]⟩ := rfl
  rw [← hstart]
  have : ∀ ls : List LayerSpec, (∀ l ∈ ls, l.dirs ≠ [] ∧ ∀ d ∈ l.dirs, d.toPathBuf w ≠ none) → lRun b fm args.fileName dv (startLog dv, w) ls = ((startLog dv, w), []) := by
    intro ls
    induction ls with
    | nil => intro _; rfl
    | cons l ls ih =>
      intro hl
      obtain ⟨l1, l2⟩ := hl l (by simp)
      have hu : unresolved w l = [] := by
        unfold unresolved
        rw [List.map_eq_nil_iff, List.filter_eq_nil_iff]
        intro d hd; simpa using l2 d hd
      have hc : layerCandidates b w args.fileName l ≠ [] := by
        rw [Ne, candidates_nil]
        rintro (h | ⟨h, h'⟩)
        · obtain ⟨d, ds, e⟩ := List.exists_cons_of_ne_nil l1
          exact l2 d (by simp [e]) (h d (by simp [e]))
        · rcases hb with hb | hb
          · rw [h] at hb; cases hb
          · rw [h'] at hb; cases hb
      have hpn : chosen w (layerCandidates b w args.fileName l) ≠ none := fun e => hc (chosen_none.1 e)
      obtain ⟨p, hp⟩ := Option.ne_none_iff_exists'.1 hpn
      have hext : pathExtension p = none := by
        have := chosen_mem hp
        unfold layerCandidates at this
        obtain ⟨folder, -, h⟩ := List.mem_flatMap.1 this
        obtain ⟨ext, -, rfl⟩ := List.mem_map.1 h
        exact (C50_no_file_name folder args.fileName ext (hf folder)).2
      have hstep : lStep b fm args.fileName dv (startLog dv, w) l = ((startLog dv, w), []) := by
        unfold lStep
        simp only [hp]
        rcases formatOf_offer (b := b) (fm := fm) (n := l.name) (p := p) with ⟨h, -⟩ | ⟨_, _, -, h⟩
        · rw [h, hu]
        · cases h with
          | toml _ h => rw [hext] at h; cases h
          | json _ h => rw [hext] at h; cases h
      rw [lRun, hstep, ih (fun x hx => hl x (by simp [hx]))]
      rfl
  rw [this args.layers hd]

/-! ## Texts and targets -/

/-- **C109**, who is told, and what: the warning that a layer could not be read gives the name of the layer and the text of the error, and the warning that a layer could not be initialised gives its name; the warning that no
file can be looked for is one of two texts that speak of the "global" configuration, whatever the layer is called. These two warnings of the macro appear under the module of the program that calls it, and all others under the
crate's own. The traces of files read and written give the format and the path. -/
theorem C109_texts (sp : Spelling) (caller : String) (b : Build) (fm : Formats) (w : World) (args : MacroArgs) :
    (∀ n e, ∃ s t, (LogRecord.readError n e).message sp = s ++ n ++ t ++ e.display sp.io sp.user) ∧
    (∀ n e, ∃ s t, (LogRecord.initError n e).message sp = s ++ n ++ t ++ sp.errorDebug e) ∧
    (∀ e, LogRecord.searchError e ∈ (createConfigLog b fm w args).2 →
      (LogRecord.searchError e).message sp = "Error loading global config: " ++ sp.errorDebug (.fileFinderError .noFoldersDefined) ∨
      (LogRecord.searchError e).message sp = "Error loading global config: " ++ sp.errorDebug (.fileFinderError .noExtensionsDefined)) ∧
    (∀ r : LogRecord, ((∃ e, r = .searchError e) ∨ ∃ n e, r = .initError n e) → r.target caller = caller) ∧
    (∀ r : LogRecord, (∀ e, r ≠ .searchError e) → (∀ n e, r ≠ .initError n e) → ∃ m, r.target caller = "bakunin_config::" ++ m) ∧
    (∀ p, (LogRecord.reading .toml p).message sp = "Reading TOML file: " ++ sp.path p ∧ (LogRecord.writing .toml p).message sp = "Writing TOML file: " ++ sp.path p ∧
      (LogRecord.reading .json p).message sp = "Reading JSON file: " ++ sp.path p ∧ (LogRecord.writing .json p).message sp = "Writing JSON file: " ++ sp.path p) := by
  refine ⟨?_, ?_, ?_, ?_, ?_, fun p => ⟨rfl, rfl, rfl, rfl⟩⟩
  · intro n e
    exact ⟨"Error reading config layer '", "': ", rfl⟩
  · intro n e
    exact ⟨"Error writing default value to ", " layer: ", rfl⟩
  · intro e h
    obtain ⟨l, -, ⟨-, rfl⟩ | ⟨-, -, -, rfl⟩⟩ := ((C109_warnings b fm w args).2.1 e).1 h
    · exact Or.inl rfl
    · exact Or.inr rfl
  · rintro r (⟨e, rfl⟩ | ⟨n, e, rfl⟩) <;> rfl
  · intro r h1 h2
    have hpre : "bakunin_config::config_layer::handlers::" = "bakunin_config::" ++ "config_layer::handlers::" := by rfl
    have h3 : "bakunin_config::config" = "bakunin_config::" ++ "config" := by rfl
    have h4 : "bakunin_config::config_layer::layer_env" = "bakunin_config::" ++ "config_layer::layer_env" := by rfl
    have h5 : "bakunin_config::file_finder::os_directory" = "bakunin_config::" ++ "file_finder::os_directory" := by rfl
    cases r with
    | layerExists => exact ⟨_, h3⟩
    | readError => exact ⟨_, h3⟩
    | envLoading => exact ⟨_, h4⟩
    | envBadName => exact ⟨_, h4⟩
    | envBadValue => exact ⟨_, h4⟩
    | reading f => exact ⟨"config_layer::handlers::" ++ f.asStr, by
        rw [← String.append_assoc, ← hpre]; rfl⟩
    | writing f => exact ⟨"config_layer::handlers::" ++ f.asStr, by
        rw [← String.append_assoc, ← hpre]; rfl⟩
    | noDirectory => exact ⟨_, h5⟩
    | initError n e => exact absurd rfl (h2 n e)
    | searchError e => exact absurd rfl (h1 e)

/-! ## Examples -/

/-- The first run of the example: the file for `two` is created, and nothing is warned of. -/
theorem exMacroLog : (createConfigLog exB1 exFormats exFresh exArgs).2 = [.writing .toml (os "/b/f.toml")] := by decide

example : ∃ c w', (createConfigLog exB1 exFormats exFresh exArgs).1 = .ok (c, w') ∧
    ∀ l ∈ exArgs.layers, l.init = some true → ∃ p ∈ layerCandidates exB1 exFresh exArgs.fileName l, w'.pathExists p = true := by
  obtain ⟨c, w', dv, h1, -, h2, -⟩ := C109_quiet exB1 exFormats exFresh exArgs (plain_of _ (by decide)) (by decide) (by decide) (by rw [exMacroLog]; decide)
  refine ⟨c, w', h1, fun l hl hi => ?_⟩
  obtain ⟨-, p, hp, -, -, -, -, h⟩ := h2 l hl
  exact ⟨p, hp, h hi⟩

/-- Directories that cannot be told, a layer without any other, one that takes the name `default`, one that takes the name of another and one called `environment`. -/
def exNoisy : MacroArgs :=
  { fileName := "f", default := [("text", .string "dflt")], env := some "APP_",
    layers := [⟨"one", [.workingDirectory, .path "/a"], none⟩, ⟨"two", [.workingDirectory], some true⟩, ⟨"default", [.path "/b"], some true⟩,
      ⟨"one", [.path "/b"], none⟩, ⟨"environment", [.path "/b"], some false⟩] }

theorem exNoisyLog : (createConfigLog exB1 exFormats exMacroWorld exNoisy).2 =
    [.noDirectory .workingDirectory, .noDirectory .workingDirectory, .searchError (.fileFinderError .noFoldersDefined),
     .layerExists "default", .initError "default" (.configLayerError .writeNotSupported), .layerExists "one", .layerExists "environment"] := by decide

example : ∃ l ∈ exNoisy.layers, OSDirectory.workingDirectory ∈ l.dirs ∧ OSDirectory.workingDirectory.toPathBuf exMacroWorld = none :=
  ((C109_warnings exB1 exFormats exMacroWorld exNoisy).1 .workingDirectory).1 (by rw [exNoisyLog]; decide)

example : ∃ l ∈ exNoisy.layers, l.name = "default" ∧ l.init = some true :=
  let ⟨l, h1, h2, h3, _⟩ := (C109_warnings exB1 exFormats exMacroWorld exNoisy).2.2.1 "default" (.configLayerError .writeNotSupported) (by rw [exNoisyLog]; decide)
  ⟨l, h1, h2, h3⟩

/-- The file name `..`: the layer is to be initialised, and nothing happens. -/
example : ∃ dv, valueMapMacro [("text", Value.string "dflt")] = some dv ∧
    createConfigLog exB1 exFormats exFresh ⟨"..", [("text", .string "dflt")], none, [⟨"one", [.path "/a"], some true⟩]⟩ =
      (.ok (⟨["default"], [("default", .memory dv)]⟩, exFresh), []) :=
  C109_swallowed exB1 exFormats exFresh ⟨"..", [("text", .string "dflt")], none, [⟨"one", [.path "/a"], some true⟩]⟩ splitFileName_dotdot rfl (Or.inl rfl) (by decide)

end Verif.Props
