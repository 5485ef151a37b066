import Verif.Spec.Features
import Verif.Props.Deciding
/-!
# C137: builds with more or fewer formats
-/
namespace Verif.Props
open Spec FileFinder

/-! ## Searches with given extensions -/

theorem ofStr_plain {b b' : Build} {e : String} (h : e ≠ ".toml" ∧ e ≠ ".json") : FileExtension.ofStr b e = FileExtension.ofStr b' e := by
  simp [FileExtension.ofStr, h.1, h.2]

theorem new_plain {b b' : Build} {w : World} {p : OsStr} {e : String} (h : e ≠ ".toml" ∧ e ≠ ".json") :
    FindResult.new b w p e = FindResult.new b' w p e := by
  simp only [FindResult.new, ofStr_plain (b := b) (b' := b') h]

/-- **C137.** A search for extensions given by the program (without leading dot, as documented) does not depend on the features. -/
theorem C137_given (b b' : Build) (w : World) (f : FileFinder) (he : ∀ e ∈ f.extensions, e ≠ ".toml" ∧ e ≠ ".json")
    (ho : b'.overflowChecks = b.overflowChecks) :
    (∀ am, f.findFirst b' w am = f.findFirst b w am) ∧ (∀ am, f.findLast b' w am = f.findLast b w am) ∧
    (∀ am, f.findAll b' w am = f.findAll b w am) ∧ f.findAllOrFirst b' w = f.findAllOrFirst b w := by
  have hi : ∀ i, incIndex b' i = incIndex b i := fun i => by simp only [incIndex, ho]
  have h1 : ∀ am base exts, (∀ e ∈ exts, e ≠ ".toml" ∧ e ≠ ".json") → ∀ st, findFirstExts b' w am base st exts = findFirstExts b w am base st exts := by
    intro am base exts
    induction exts with
    | nil => intro _ _; rfl
    | cons x exts ih =>
      intro hx st
      have ih := ih fun y hy => hx y (by simp [hy])
      simp only [findFirstExts, new_plain (b := b') (b' := b) (hx x (by simp)), ih]
  have h2 : ∀ am base exts, (∀ e ∈ exts, e ≠ ".toml" ∧ e ≠ ".json") → ∀ st, findLastExts b' w am base st exts = findLastExts b w am base st exts := by
    intro am base exts
    induction exts with
    | nil => intro _ _; rfl
    | cons x exts ih =>
      intro hx st
      have ih := ih fun y hy => hx y (by simp [hy])
      simp only [findLastExts, new_plain (b := b') (b' := b) (hx x (by simp)), ih]
  have h3 : ∀ am base exts, (∀ e ∈ exts, e ≠ ".toml" ∧ e ≠ ".json") → ∀ st, findAllExts b' w am base st exts = findAllExts b w am base st exts := by
    intro am base exts
    induction exts with
    | nil => intro _ _; rfl
    | cons x exts ih =>
      intro hx st
      have ih := ih fun y hy => hx y (by simp [hy])
      simp only [findAllExts, new_plain (b := b') (b' := b) (hx x (by simp)), ih, hi]
  have h4 : ∀ base exts, (∀ e ∈ exts, e ≠ ".toml" ∧ e ≠ ".json") → ∀ st, findAllOrFirstExts b' w base st exts = findAllOrFirstExts b w base st exts := by
    intro base exts
    induction exts with
    | nil => intro _ _; rfl
    | cons x exts ih =>
      intro hx st
      have ih := ih fun y hy => hx y (by simp [hy])
      simp only [findAllOrFirstExts, new_plain (b := b') (b' := b) (hx x (by simp)), ih, hi]
  have g1 : ∀ am fs st, findFirstFolders b' w am f.fileName f.extensions st fs = findFirstFolders b w am f.fileName f.extensions st fs := by
    intro am fs
    induction fs with
    | nil => intro _; rfl
    | cons x fs ih => intro st; simp only [findFirstFolders, h1 _ _ _ he, ih]
  have g2 : ∀ am fs st, findLastFolders b' w am f.fileName f.extensions st fs = findLastFolders b w am f.fileName f.extensions st fs := by
    intro am fs
    induction fs with
    | nil => intro _; rfl
    | cons x fs ih => intro st; simp only [findLastFolders, h2 _ _ _ he, ih]
  have g3 : ∀ am fs st, findAllFolders b' w am f.fileName f.extensions st fs = findAllFolders b w am f.fileName f.extensions st fs := by
    intro am fs
    induction fs with
    | nil => intro _; rfl
    | cons x fs ih => intro st; simp only [findAllFolders, h3 _ _ _ he, ih]
  have g4 : ∀ fs st, findAllOrFirstFolders b' w f.fileName f.extensions st fs = findAllOrFirstFolders b w f.fileName f.extensions st fs := by
    intro fs
    induction fs with
    | nil => intro _; rfl
    | cons x fs ih => intro st; simp only [findAllOrFirstFolders, h4 _ _ he, ih]
  refine ⟨fun am => ?_, fun am => ?_, fun am => ?_, ?_⟩
  · simp only [findFirst, g1]
  · simp only [findLast, g2]
  · simp only [findAll, g3]
  · simp only [findAllOrFirst, g4]

/-! ## `add_file_layer` -/

/-- **C137.** What `add_file_layer` accepted it accepts with more formats, as the same layer; it changes its mind only about paths with the
extension of a gained format, which it refused. -/
theorem C137_add (b b' : Build) (hm : MoreFormats b b') (fm : Formats) (c : Config) (name : String) (path : OsStr) :
    ((¬ ∃ ext, Gained b b' ext ∧ pathExtension path = some (os ext)) → c.addFileLayer b' fm name path = c.addFileLayer b fm name path) ∧
    ∀ ext, Gained b b' ext → pathExtension path = some (os ext) →
      c.addFileLayer b fm name path = (.error (.configLayerError (.unsupportedExtension ext)), c) ∧
      ∃ cd, c.addFileLayer b' fm name path = (.ok (), c.pushLayer name (.file (textHandler cd) path)) ∧
        ((ext = "toml" ∧ cd = fm.toml) ∨ (ext = "json" ∧ cd = fm.json)) := by
  have ne : ¬ os "json" = os "toml" := by decide
  have ne' : ¬ os "toml" = os "json" := by decide
  constructor
  · intro h
    by_cases ht : pathExtension path = some (os "toml")
    · by_cases hb : b.toml = true
      · rw [C12_accepts b fm c name path fm.toml (Or.inl ⟨hb, ht, rfl⟩), C12_accepts b' fm c name path fm.toml (Or.inl ⟨hm.toml hb, ht, rfl⟩)]
      · have hb' : b'.toml ≠ true := fun e => h ⟨"toml", ⟨by simp [enabled, e], by simp [enabled, hb]⟩, ht⟩
        rw [addFileLayer_eq, addFileLayer_eq]
        simp [RegCall.offer, ht, hb, hb', ne']
    · by_cases hj : pathExtension path = some (os "json")
      · by_cases hb : b.json = true
        · rw [C12_accepts b fm c name path fm.json (Or.inr ⟨hb, hj, rfl⟩), C12_accepts b' fm c name path fm.json (Or.inr ⟨hm.json hb, hj, rfl⟩)]
        · have hb' : b'.json ≠ true := fun e => h ⟨"json", ⟨by simp [enabled, e], by simp [enabled, hb]⟩, hj⟩
          rw [addFileLayer_eq, addFileLayer_eq]
          simp [RegCall.offer, hj, hb, hb', ne]
      · rw [addFileLayer_eq, addFileLayer_eq]
        simp [RegCall.offer, ht, hj]
  · intro ext hg he
    have hb : ¬ (b.toml = true ∧ pathExtension path = some (os "toml")) := by
      rintro ⟨h1, h2⟩
      rw [he] at h2
      have := os_inj (Option.some.inj h2)
      subst this
      exact hg.2 (by simp [enabled, h1])
    have hb2 : ¬ (b.json = true ∧ pathExtension path = some (os "json")) := by
      rintro ⟨h1, h2⟩
      rw [he] at h2
      have := os_inj (Option.some.inj h2)
      subst this
      exact hg.2 (by simp [enabled, h1])
    obtain ⟨e, h1, h2, -⟩ := C12_rejects b fm c name path hb hb2
    refine ⟨by rw [h1, h2 ext he], ?_⟩
    have : (b'.toml = true ∧ ext = "toml") ∨ (b'.json = true ∧ ext = "json") := by
      have := hg.1
      unfold enabled at this
      rcases List.mem_append.1 this with h | h
      · split at h
        · rename_i ht; simp at h; exact Or.inl ⟨ht, h⟩
        · cases h
      · split at h
        · rename_i ht; simp at h; exact Or.inr ⟨ht, h⟩
        · cases h
    rcases this with ⟨ht, rfl⟩ | ⟨ht, rfl⟩
    · exact ⟨_, C12_accepts b' fm c name path fm.toml (Or.inl ⟨ht, he, rfl⟩), Or.inl ⟨rfl, rfl⟩⟩
    · exact ⟨_, C12_accepts b' fm c name path fm.json (Or.inr ⟨ht, he, rfl⟩), Or.inr ⟨rfl, rfl⟩⟩

/-! ## `create_config!` -/

theorem mem_enabled {b : Build} {e : String} : e ∈ enabled b ↔ (b.toml = true ∧ e = "toml") ∨ (b.json = true ∧ e = "json") := by
  unfold enabled
  cases b.toml <;> cases b.json <;> simp

theorem find_more {b b' : Build} (hm : MoreFormats b b') (u : World) (name : String) (folders : List OsStr)
    (h : ∀ ext, Gained b b' ext → ∀ f ∈ folders, u.pathExists (candidate f name ext) = false) :
    (folders.flatMap fun f => (enabled b').map fun ext => candidate f name ext).find? (fun p => u.pathExists p) =
    (folders.flatMap fun f => (enabled b).map fun ext => candidate f name ext).find? (fun p => u.pathExists p) := by
  induction folders with
  | nil => rfl
  | cons f fs ih =>
    rw [List.flatMap_cons, List.flatMap_cons, List.find?_append, List.find?_append, ih fun e he g hg => h e he g (by simp [hg])]
    congr 1
    have ht : b.toml = false → b'.toml = true → u.pathExists (candidate f name "toml") = false := fun h1 h2 =>
      h "toml" ⟨mem_enabled.2 (Or.inl ⟨h2, rfl⟩), fun h => by rcases mem_enabled.1 h with ⟨e, -⟩ | ⟨-, e⟩; rw [h1] at e; cases e; revert e; decide⟩ f (by simp)
    have hj : b.json = false → b'.json = true → u.pathExists (candidate f name "json") = false := fun h1 h2 =>
      h "json" ⟨mem_enabled.2 (Or.inr ⟨h2, rfl⟩), fun h => by rcases mem_enabled.1 h with ⟨-, e⟩ | ⟨e, -⟩; revert e; decide; rw [h1] at e; cases e⟩ f (by simp)
    have m1 := hm.toml
    have m2 := hm.json
    clear ih h
    revert m1 m2 ht hj
    unfold enabled
    cases b.toml <;> cases b.json <;> cases b'.toml <;> cases b'.json <;> simp <;> intros <;> simp_all [List.find?_cons] <;> split <;> simp_all

theorem chosen_more {b b' : Build} (hm : MoreFormats b b') (u w : World) (name : String) (l : LayerSpec)
    (h : ∀ p, GainedCandidate b b' w name l p → u.pathExists p = false)
    (hh : (enabled b).head? = (enabled b').head? ∨ ∃ p ∈ layerCandidates b w name l, u.pathExists p = true) :
    chosen u (layerCandidates b' w name l) = chosen u (layerCandidates b w name l) := by
  have hf := find_more hm u name (l.dirs.filterMap (OSDirectory.toPathBuf w)) (by
    intro ext he f hf
    obtain ⟨d, hd, e⟩ := List.mem_filterMap.1 hf
    exact h _ ⟨ext, he, d, hd, f, e, rfl⟩)
  unfold chosen
  rcases hh with hh | ⟨p, hp, he⟩
  · unfold layerCandidates
    rw [hf]
    congr 1
    cases l.dirs.filterMap (OSDirectory.toPathBuf w) with
    | nil => rfl
    | cons f fs =>
      rw [List.flatMap_cons, List.flatMap_cons]
      revert hh
      unfold enabled
      cases b.toml <;> cases b.json <;> cases b'.toml <;> cases b'.json <;> simp [show ¬ "toml" = "json" by decide, show ¬ "json" = "toml" by decide]
  · have : ∃ q, (layerCandidates b w name l).find? (fun p => u.pathExists p) = some q := by
      cases hq : (layerCandidates b w name l).find? (fun p => u.pathExists p) with
      | some q => exact ⟨q, rfl⟩
      | none => have := List.find?_eq_none.1 hq p hp; simp [he] at this
    obtain ⟨q, hq⟩ := this
    have hq' : (layerCandidates b' w name l).find? (fun p => u.pathExists p) = some q := by
      rw [← hq]; exact hf
    rw [hq, hq']; rfl

/-- The extension of a candidate is the one it was made with, or there is none. -/
theorem candidate_extension {b : Build} {w : World} {name : String} {l : LayerSpec} {p : OsStr} (hp : p ∈ layerCandidates b w name l) :
    pathExtension p = none ∨ ∃ e ∈ enabled b, pathExtension p = some (os e) := by
  unfold layerCandidates at hp
  obtain ⟨f, -, hp⟩ := List.mem_flatMap.1 hp
  obtain ⟨e, he, rfl⟩ := List.mem_map.1 hp
  by_cases hs : splitFileName (pathJoin f (os name)) = none
  · exact Or.inl (C50_no_file_name f name e hs).2
  · right
    refine ⟨e, he, (C50_extension f name e ?_ (enabled_noSep b e he) ?_).1 hs⟩
    · rcases mem_enabled.1 he with ⟨-, rfl⟩ | ⟨-, rfl⟩ <;> decide
    · rcases mem_enabled.1 he with ⟨-, rfl⟩ | ⟨-, rfl⟩ <;> decide

theorem offer_more {b b' : Build} (hm : MoreFormats b b') (fm : Formats) {w : World} {name : String} {l : LayerSpec} {p : OsStr}
    (hp : p ∈ layerCandidates b w name l) (n : String) : (RegCall.file n p).offer b' fm = (RegCall.file n p).offer b fm := by
  rcases candidate_extension hp with h | ⟨e, he, h⟩
  · simp [RegCall.offer, h]
  · have ne : ¬ os "json" = os "toml" := by decide
    rcases mem_enabled.1 he with ⟨hb, rfl⟩ | ⟨hb, rfl⟩
    · simp [RegCall.offer, h, hb, hm.toml hb]
    · simp [RegCall.offer, h, hb, hm.json hb, ne]

theorem apply_more {b b' : Build} (hm : MoreFormats b b') (fm : Formats) {w : World} {name : String} {l : LayerSpec} {p : OsStr}
    (hp : p ∈ layerCandidates b w name l) (n : String) (c : Config) :
    (RegCall.file n p).apply b' fm c = (RegCall.file n p).apply b fm c := by
  simp only [RegCall.apply, addFileLayer_eq, offer_more hm fm hp n]

/-- One layer of the macro changes only places of files taken. -/
theorem mStep_changed {b : Build} {fm : Formats} {args : MacroArgs} {w : World} (dv : Value) {l : LayerSpec} (hl : l ∈ args.layers)
    {calls : List RegCall} {v : World} (hc : CallsAt (PlaceTaken b w args) w.locate args calls) (hv : ChangedAt (PlaceTaken b w args) w v) :
    ∃ calls' v', mStep b fm args.fileName dv (register b fm calls, v) l = (register b fm calls', v') ∧
      CallsAt (PlaceTaken b w args) w.locate args calls' ∧ ChangedAt (PlaceTaken b w args) w v' ∧
      ((chosen v (layerCandidates b w args.fileName l) = none ∧ calls' = calls) ∨
        ∃ p, chosen v (layerCandidates b w args.fileName l) = some p ∧ calls' = calls ++ [.file l.name p]) := by
  unfold mStep
  dsimp only
  rw [hv.same.candidates]
  cases hp : chosen v (layerCandidates b w args.fileName l) with
  | none => exact ⟨calls, v, rfl, hc, hv, Or.inl ⟨rfl, rfl⟩⟩
  | some p =>
    dsimp only
    obtain ⟨hSp, -⟩ := chosen_at hv (fun q hq => ⟨l, hl, q, hq, rfl⟩) hp
    rw [register_append]
    have hc' : CallsAt (PlaceTaken b w args) w.locate args (calls ++ [.file l.name p]) := by
      intro c hx
      rcases List.mem_append.1 hx with hx | hx
      · exact hc c hx
      · rw [List.mem_singleton] at hx; subst hx; exact hSp
    have hkv : ∀ n l', (register b fm (calls ++ [.file l.name p])).getLayer n = some l' → KeptAt (PlaceTaken b w args) v.locate l' :=
      fun n l' hg => by rw [hv.same.locate]; exact keptAt_of_calls hc' hg
    obtain ⟨-, g2⟩ := initLayer_at (u := v) hkv ⟨rfl, rfl, rfl, fun _ _ => rfl, fun _ _ => rfl⟩ ((RegCall.file l.name p).offer b fm).isSome (p := p) rfl l dv
    exact ⟨_, _, rfl, hc', hv.trans g2, Or.inr ⟨p, rfl, rfl⟩⟩

theorem foldl_more {b b' : Build} (hm : MoreFormats b b') {fm : Formats} {args : MacroArgs} {w : World} (hg : NothingGained b b' w args)
    (hh : ∀ l ∈ args.layers, (enabled b).head? = (enabled b').head? ∨ ∃ p ∈ layerCandidates b w args.fileName l, w.pathExists p = true)
    (dv : Value) (ls : List LayerSpec) :
    (∀ l ∈ ls, l ∈ args.layers) → ∀ (calls : List RegCall) (v : World), CallsAt (PlaceTaken b w args) w.locate args calls →
    ChangedAt (PlaceTaken b w args) w v →
      ls.foldl (mStep b' fm args.fileName dv) (register b fm calls, v) = ls.foldl (mStep b fm args.fileName dv) (register b fm calls, v) := by
  induction ls with
  | nil => intros; rfl
  | cons l ls ih =>
    intro hls calls v hc hv
    have hl : l ∈ args.layers := hls l (by simp)
    have hls' : ∀ y ∈ ls, y ∈ args.layers := fun y hy => hls y (by simp [hy])
    rw [List.foldl_cons, List.foldl_cons]
    have hch : chosen v (layerCandidates b' w args.fileName l) = chosen v (layerCandidates b w args.fileName l) := by
      refine chosen_more hm v w args.fileName l (fun p hp => ?_) ?_
      · rw [pathExists_congr (w := w) (w' := v) (by rw [hv.same.locate]; exact hv.disk _ (hg.places l hl p hp)), hg.missing l hl p hp]
      · rcases hh l hl with h | ⟨p, hp, he⟩
        · exact Or.inl h
        · exact Or.inr ⟨p, hp, hv.there p he⟩
    have hstep : mStep b' fm args.fileName dv (register b fm calls, v) l = mStep b fm args.fileName dv (register b fm calls, v) l := by
      unfold mStep
      dsimp only
      rw [hv.same.candidates b args.fileName l, hv.same.candidates b' args.fileName l, hch]
      cases hp : chosen v (layerCandidates b w args.fileName l) with
      | none => rfl
      | some p =>
        dsimp only
        rw [apply_more hm fm (chosen_mem hp), offer_more hm fm (chosen_mem hp)]
    obtain ⟨calls', v', e1, e2, e3, -⟩ := mStep_changed (fm := fm) dv hl hc hv
    rw [hstep, e1]
    exact ih hls' calls' v' e2 e3

/-- **C137.** As long as no file of a gained format stands in one of the directories of a layer (nor is another name of a file taken), a build with
more formats starts in the same way: `create_config!` makes the same configuration and leaves the same disk. This needs one more thing if the gained
format comes first in the order of formats (TOML gained by a JSON build, or the first format at all): every layer must have a file already, for new
files are made in the first format. -/
theorem C137_start (b b' : Build) (hm : MoreFormats b b') (fm : Formats) (w : World) (args : MacroArgs) (hg : NothingGained b b' w args)
    (hh : ∀ l ∈ args.layers, (enabled b).head? = (enabled b').head? ∨ ∃ p ∈ layerCandidates b w args.fileName l, w.pathExists p = true) :
    createConfig b' fm w args = createConfig b fm w args := by
  obtain ⟨dv, h1, h2⟩ := createConfig_eq b fm w args
  obtain ⟨dv', h1', h2'⟩ := createConfig_eq b' fm w args
  rw [h1] at h1'; cases h1'
  have hr : register b' fm [.memory "default" dv] = register b fm [.memory "default" dv] := rfl
  have := foldl_more hm (fm := fm) hg hh dv args.layers (fun _ h => h) [.memory "default" dv] w
    (by intro c hc; simp at hc; subst hc; trivial) (ChangedAt.refl _ w)
  rw [h2, h2', hr, this]
  cases args.env <;> rfl

/-- **C137.** Without any format no file layer is added, whatever files there are, and nothing is written: the program runs on its defaults and the
environment. -/
theorem C137_none (b : Build) (hb : b.toml = false ∧ b.json = false) (fm : Formats) (w : World) (args : MacroArgs) :
    ∃ dv, valueMapMacro args.default = some dv ∧
      createConfig b fm w args = .ok ((match args.env with
        | some pre => (Config.new.addMemoryLayer "default" dv).addEnvironmentLayer "environment" pre
        | none => Config.new.addMemoryLayer "default" dv), w) := by
  obtain ⟨dv, h1, h2⟩ := createConfig_eq b fm w args
  have hf : ∀ (ls : List LayerSpec) st, ls.foldl (mStep b fm args.fileName dv) st = st := by
    intro ls
    induction ls with
    | nil => intro _; rfl
    | cons l ls ih =>
      intro st
      have : layerCandidates b st.2 args.fileName l = [] := by unfold layerCandidates enabled; rw [hb.1, hb.2]; simp
      rw [List.foldl_cons, ih]
      unfold mStep
      rw [chosen_none.2 this]
  rw [hf] at h2
  refine ⟨dv, h1, ?_⟩
  rw [h2]
  cases args.env <;> rfl

theorem getLayer_keep_foldl {b : Build} {fm : Formats} {args : MacroArgs} {w : World} {dv : Value} {n : String} (ls : List LayerSpec) :
    (∀ l ∈ ls, l ∈ args.layers) → ∀ (calls : List RegCall) (v : World), CallsAt (PlaceTaken b w args) w.locate args calls →
      ChangedAt (PlaceTaken b w args) w v → (∀ l ∈ ls, l.name ≠ n) →
      (ls.foldl (mStep b fm args.fileName dv) (register b fm calls, v)).1.getLayer n = (register b fm calls).getLayer n := by
  induction ls with
  | nil => intros; rfl
  | cons l ls ih =>
    intro hls calls v hc hv hn
    rw [List.foldl_cons]
    obtain ⟨calls', v', e1, e2, e3, e4⟩ := mStep_changed (fm := fm) dv (hls l (by simp)) hc hv
    rw [e1, ih (fun y hy => hls y (by simp [hy])) calls' v' e2 e3 fun x hx => hn x (by simp [hx])]
    rcases e4 with ⟨-, rfl⟩ | ⟨p, -, rfl⟩
    · rfl
    · exact getLayer_append_ne b fm calls l.name n p (Ne.symm (hn l (by simp)))

/-- A layer whose choice is fixed gets that file. -/
theorem getLayer_foldl {b : Build} {fm : Formats} {args : MacroArgs} {dv : Value} {l : LayerSpec} {p : OsStr} {cd : Codec} {w : World}
    (hf : TextFmt b fm p cd)
    (hch : ∀ u, ChangedAt (PlaceTaken b w args) w u → chosen u (layerCandidates b w args.fileName l) = some p) (ls : List LayerSpec) :
    (∀ l ∈ ls, l ∈ args.layers) → ∀ (calls : List RegCall) (v : World), CallsAt (PlaceTaken b w args) w.locate args calls →
      ChangedAt (PlaceTaken b w args) w v → (ls.map LayerSpec.name).Nodup → l ∈ ls → (register b fm calls).getLayer l.name = none →
      (ls.foldl (mStep b fm args.fileName dv) (register b fm calls, v)).1.getLayer l.name = some (.file (textHandler cd) p) := by
  induction ls with
  | nil => intro _ _ _ _ _ _ h; cases h
  | cons l0 ls ih =>
    intro hls calls v hc hv hn hl hnone
    rw [List.map_cons, List.nodup_cons] at hn
    have hls' : ∀ y ∈ ls, y ∈ args.layers := fun y hy => hls y (by simp [hy])
    rw [List.foldl_cons]
    obtain ⟨calls', v', e1, e2, e3, e4⟩ := mStep_changed (fm := fm) dv (hls l0 (by simp)) hc hv
    rw [e1]
    rcases List.mem_cons.1 hl with rfl | hl
    · have hne : ∀ x ∈ ls, x.name ≠ l.name := fun x hx e => hn.1 (by rw [← e]; exact List.mem_map_of_mem hx)
      rw [getLayer_keep_foldl ls hls' calls' v' e2 e3 hne]
      rcases e4 with ⟨h, -⟩ | ⟨p', h, rfl⟩
      · rw [hch v hv] at h; cases h
      · rw [hch v hv] at h; cases h
        exact getLayer_append_new b fm calls l.name p cd hnone hf
    · have hne : l.name ≠ l0.name := fun e => hn.1 (by rw [← e]; exact List.mem_map_of_mem hl)
      refine ih hls' calls' v' e2 e3 hn.2 hl ?_
      rcases e4 with ⟨-, rfl⟩ | ⟨p', -, rfl⟩
      · exact hnone
      · rw [getLayer_append_ne b fm calls l0.name l.name p' hne, hnone]

theorem getLayer_createConfig {b : Build} {fm : Formats} {w : World} {args : MacroArgs} {c : Config} {w' : World}
    (h : createConfig b fm w args = .ok (c, w')) (hn : (args.layers.map LayerSpec.name).Nodup) {l : LayerSpec} (hl : l ∈ args.layers)
    (hname : l.name ≠ "default") {p : OsStr} {cd : Codec} (hf : TextFmt b fm p cd)
    (hch : ∀ u, ChangedAt (PlaceTaken b w args) w u → chosen u (layerCandidates b w args.fileName l) = some p) :
    c.getLayer l.name = some (.file (textHandler cd) p) := by
  obtain ⟨dv, h1, h2⟩ := createConfig_eq b fm w args
  rw [h] at h2
  simp only [Outcome.ok.injEq, Prod.mk.injEq] at h2
  have hb : ∀ c ∈ [RegCall.memory "default" dv], c.BuiltIn := by intro c hc; simp at hc; subst hc; trivial
  have hnone : (register b fm [.memory "default" dv]).getLayer l.name = none := by
    rw [(C11_first_wins b fm _ l.name).1]
    simp [offers, RegCall.offer, Ne.symm hname]
  have hg := getLayer_foldl (dv := dv) hf hch args.layers (fun _ h => h) [.memory "default" dv] w
    (by intro c hc; simp at hc; subst hc; trivial) (ChangedAt.refl _ w) hn hl hnone
  obtain ⟨paths, w1, e1, -⟩ := foldl_mStep b fm args.fileName dv args.layers [.memory "default" dv] w hb
  rw [e1] at h2 hg
  rw [h2.1]
  dsimp only at hg ⊢
  cases args.env with
  | none => exact hg
  | some pre =>
    simp only [Option.map_some, Option.toList_some, List.foldl_cons, List.foldl_nil]
    rw [register_append]
    rw [(C11_first_wins b fm _ l.name).1, Option.map_eq_some_iff] at hg ⊢
    obtain ⟨e, he, hee⟩ := hg
    refine ⟨e, ?_, hee⟩
    rw [offers_cat, List.find?_append, he]; rfl

/-- The file of a layer is one of its candidates. -/
theorem getLayer_candidate {b : Build} {fm : Formats} {w : World} {args : MacroArgs} {c : Config} {w' : World}
    (h : createConfig b fm w args = .ok (c, w')) (hn : (args.layers.map LayerSpec.name).Nodup) {l : LayerSpec} (hl : l ∈ args.layers)
    {hd : FileHandler} {p : OsStr} (hg : c.getLayer l.name = some (.file hd p)) : p ∈ layerCandidates b w args.fileName l := by
  obtain ⟨c', w1, dv, e1, -, files, e2, e3, e4, -⟩ := C60_order b fm w args
  rw [h] at e1; cases e1
  subst e2
  rw [(C11_first_wins b fm _ l.name).1, Option.map_eq_some_iff] at hg
  obtain ⟨⟨n, x⟩, he, hx⟩ := hg
  dsimp only at hx; subst hx
  have hname : n = l.name := by simpa using List.find?_some he
  obtain ⟨c, hc, ho⟩ := List.mem_filterMap.1 (List.mem_of_find?_eq_some he)
  rcases List.mem_append.1 hc with hc | hc
  · rcases List.mem_append.1 hc with hc | hc
    · simp at hc; subst hc; cases ho
    · obtain ⟨x, hx, rfl⟩ := List.mem_map.1 hc
      obtain ⟨cd, e, -⟩ := offer_file ho
      cases e
      have hx1 : x.1 ∈ args.layers := (List.mem_filter.1 (e3 ▸ List.mem_map_of_mem hx : x.1 ∈ args.layers.filter _)).1
      have : x.1 = l := List.inj_on_of_nodup_map hn hx1 hl hname
      rw [← this]; exact e4 x hx
  · cases henv : args.env with
    | none => rw [henv] at hc; cases hc
    | some pre => rw [henv] at hc; simp at hc; subst hc; cases ho

/-- **C137.** A file of a gained format takes over: if it stands before every other candidate that exists, the layer reads and writes it in the build
with more formats, and did not in the other. -/
theorem C137_takeover (b b' : Build) (fm : Formats) (w : World) (args : MacroArgs) (hplain : PlainName args.fileName)
    (hn : (args.layers.map LayerSpec.name).Nodup) (l : LayerSpec) (hl : l ∈ args.layers) (hname : l.name ≠ "default")
    (before after : List OsStr) (q : OsStr) (hcs : layerCandidates b' w args.fileName l = before ++ q :: after)
    (hq : w.pathExists q = true) (hbefore : ∀ p ∈ before, w.pathExists p = false ∧ ¬ PlaceTaken b' w args (w.locate p))
    (hg : GainedCandidate b b' w args.fileName l q) :
    ∃ c c' w1 w2 cd, createConfig b fm w args = .ok (c, w1) ∧ createConfig b' fm w args = .ok (c', w2) ∧
      c'.getLayer l.name = some (.file (textHandler cd) q) ∧
      ((pathExtension q = some (os "toml") ∧ cd = fm.toml) ∨ (pathExtension q = some (os "json") ∧ cd = fm.json)) ∧
      ∀ h, c.getLayer l.name ≠ some (.file h q) := by
  obtain ⟨ext, hext, d, hd, folder, hfo, rfl⟩ := hg
  have hx : pathExtension (candidate folder args.fileName ext) = some (os ext) := by
    refine (C50_extension folder args.fileName ext ?_ (enabled_noSep b' ext hext.1) ?_).2 hplain
    · rcases mem_enabled.1 hext.1 with ⟨-, rfl⟩ | ⟨-, rfl⟩ <;> decide
    · rcases mem_enabled.1 hext.1 with ⟨-, rfl⟩ | ⟨-, rfl⟩ <;> decide
  obtain ⟨c, w1, -, h1, -⟩ := C60_order b fm w args
  obtain ⟨c', w2, -, h2, -⟩ := C60_order b' fm w args
  have hf : ∃ cd, TextFmt b' fm (candidate folder args.fileName ext) cd := by
    rcases mem_enabled.1 hext.1 with ⟨h, rfl⟩ | ⟨h, rfl⟩
    · exact ⟨_, Or.inl ⟨hx, h, rfl⟩⟩
    · exact ⟨_, Or.inr ⟨hx, h, rfl⟩⟩
  obtain ⟨cd, hf⟩ := hf
  refine ⟨c, c', w1, w2, cd, h1, h2, ?_, hf.imp (fun h => ⟨h.1, h.2.2⟩) (fun h => ⟨h.1, h.2.2⟩), fun h e => ?_⟩
  · refine getLayer_createConfig h2 hn hl hname hf fun u hu => ?_
    rw [hcs]
    unfold chosen
    rw [List.find?_append, List.find?_eq_none.2, Option.none_or, List.find?_cons, hu.there _ hq]
    · rfl
    · intro p hp
      obtain ⟨m1, m2⟩ := hbefore p hp
      rw [pathExists_congr (w := w) (w' := u) (by rw [hu.same.locate]; exact hu.disk _ m2), m1]
      simp
  · rcases candidate_extension (getLayer_candidate h1 hn hl e) with k | ⟨e', k1, k2⟩
    · rw [hx] at k; cases k
    · rw [hx] at k2
      have := os_inj (Option.some.inj k2)
      subst this
      exact hext.2 k1

/-- **C137.** One run without a format can shadow its files for good. A layer marked `init: true` whose settings are in JSON finds nothing in a build
without JSON, and (if the OS lets it) makes a TOML file of the defaults; from then on a build with both formats takes that file, as long as it exists,
and no longer the JSON one. -/
theorem C137_shadow (b b' : Build) (hb : b.toml = true) (hb' : b'.toml = true) (fm : Formats) (w : World) (args : MacroArgs)
    (hplain : PlainName args.fileName) (hn : (args.layers.map LayerSpec.name).Nodup) (c : Config) (w1 : World)
    (h : createConfig b fm w args = .ok (c, w1)) (dv : Value) (hdv : valueMapMacro args.default = some dv)
    (l : LayerSpec) (hl : l ∈ args.layers) (hi : l.init = some true) (hname : l.name ≠ "default")
    (d : OSDirectory) (ds : List OSDirectory) (hd : l.dirs = d :: ds) (folder : OsStr) (hfo : d.toPathBuf w = some folder)
    (text : String) (hprint : fm.toml.print dv.toData = .ok text)
    (hcreate : ∀ code, w.disk (w.locate (candidate folder args.fileName "toml")) ≠ .absent (some code))
    (hroom : w.room (w.locate (candidate folder args.fileName "toml")) = none)
    (hfresh : ∀ q ∈ layerCandidates b w args.fileName l, w.pathExists q = false)
    (hothers : ∀ l' ∈ args.layers, l' ≠ l → l'.init = some true → ∀ p', (layerCandidates b w args.fileName l').head? = some p' →
      ∀ q ∈ layerCandidates b w args.fileName l, w.locate p' ≠ w.locate q) :
    w1.disk (w1.locate (candidate folder args.fileName "toml")) = .file (utf8 text) none none ∧
    ∀ u, u = { w1 with disk := u.disk } → u.pathExists (candidate folder args.fileName "toml") = true →
      ∃ c' u', createConfig b' fm u args = .ok (c', u') ∧
        c'.getLayer l.name = some (.file (textHandler fm.toml) (candidate folder args.fileName "toml")) := by
  have hx : pathExtension (candidate folder args.fileName "toml") = some (os "toml") :=
    (C50_extension folder args.fileName "toml" (by decide) (by decide) (by decide)).2 hplain
  have hhead : ∀ (b : Build) (w : World), b.toml = true → d.toPathBuf w = some folder →
      (layerCandidates b w args.fileName l).head? = some (candidate folder args.fileName "toml") := by
    intro b w hb hfo
    unfold layerCandidates enabled
    rw [hd, List.filterMap_cons, hfo, hb]; rfl
  obtain ⟨k1, -⟩ := C67_init_exact b fm w args hn c w1 h dv hdv l hl hi hname _ (hhead b w hb hfo) fm.toml (Or.inl ⟨hx, hb, rfl⟩) text hprint hcreate
    hfresh hroom hothers
  refine ⟨k1, fun u hu hex => ?_⟩
  obtain ⟨c', u', -, h2, -⟩ := C60_order b' fm u args
  obtain ⟨dv', -, hcr⟩ := C61_init_safe b fm w args hn c w1 h
  have hs : SameEnv w u := hcr.same.trans hu
  have hfu : d.toPathBuf u = some folder := by
    rw [← hfo]; unfold OSDirectory.toPathBuf; rw [hs.baseDirs, hs.cwd]
  refine ⟨c', u', h2, getLayer_createConfig h2 hn hl hname (Or.inl ⟨hx, hb', rfl⟩) fun x hxu => ?_⟩
  unfold chosen
  cases hcs : layerCandidates b' u args.fileName l with
  | nil => rw [← List.head?_eq_none_iff, hhead b' u hb' hfu] at hcs; cases hcs
  | cons p ps =>
    have := hhead b' u hb' hfu
    rw [hcs] at this; simp at this; subst this
    rw [List.find?_cons, hxu.there _ hex]; rfl

/-! ## Examples -/

def exB2 : Build := { toml := true, json := true, overflowChecks := true }
def exBJ : Build := { toml := false, json := true, overflowChecks := true }
def exB0 : Build := { toml := false, json := false, overflowChecks := true }

theorem exMore12 : MoreFormats exB1 exB2 := ⟨fun h => h, (fun h => nomatch h)⟩
theorem exMoreJ2 : MoreFormats exBJ exB2 := ⟨(fun h => nomatch h), fun h => h⟩
theorem exGained12 {ext : String} (h : Gained exB1 exB2 ext) : ext = "json" := by
  rcases mem_enabled.1 h.1 with ⟨-, e⟩ | ⟨-, e⟩
  · exact absurd (mem_enabled.2 (Or.inl ⟨rfl, e⟩)) h.2
  · exact e
theorem exGainedJ2 {ext : String} (h : Gained exBJ exB2 ext) : ext = "toml" := by
  rcases mem_enabled.1 h.1 with ⟨-, e⟩ | ⟨-, e⟩
  · exact e
  · exact absurd (mem_enabled.2 (Or.inr ⟨rfl, e⟩)) h.2

theorem exGained_json : Gained exB1 exB2 "json" := ⟨by decide, by decide⟩

/-- The finder of two folders and a format of the program's own. -/
example (w : World) (am : Bool) :
    ((((FileFinder.new "conf").withFolder (os "/a")).withFolder (os "/b")).withExtension "yaml").findFirst exB2 w am =
    ((((FileFinder.new "conf").withFolder (os "/a")).withFolder (os "/b")).withExtension "yaml").findFirst exB0 w am :=
  (C137_given exB0 exB2 w _ (by decide) rfl).1 am

/-- A JSON path is refused without JSON and accepted with it; a TOML path makes no difference. -/
example (c : Config) : c.addFileLayer exB2 exFormats "f" (os "/x/y.toml") = c.addFileLayer exB1 exFormats "f" (os "/x/y.toml") ∧
    c.addFileLayer exB1 exFormats "f" (os "/x/y.json") = (.error (.configLayerError (.unsupportedExtension "json")), c) := by
  refine ⟨(C137_add exB1 exB2 exMore12 exFormats c "f" (os "/x/y.toml")).1 ?_,
    ((C137_add exB1 exB2 exMore12 exFormats c "f" (os "/x/y.json")).2 "json" exGained_json (by decide)).1⟩
  rintro ⟨ext, h1, h2⟩
  rw [exGained12 h1] at h2
  revert h2; decide

/-- Places for the files of the layers `one` (in `/a`) and `two` (in `/c`), of both formats. -/
def exFeatPlaces (p : OsStr) : Nat :=
  if p = os "/a/f.toml" then 1 else if p = os "/a/f.json" then 2 else if p = os "/c/f.toml" then 3 else if p = os "/c/f.json" then 4 else 5
def exFeatArgs : MacroArgs :=
  { fileName := "f", default := [("text", .string "dflt")], env := some "APP_",
    layers := [⟨"one", [.path "/a"], some true⟩, ⟨"two", [.path "/c"], none⟩] }
/-- A TOML file in `/c`. -/
def exFeatT : World := exTier exFeatPlaces fun s => if s = 3 then some "hi" else none
/-- JSON files in `/a` and `/c`. -/
def exFeatJ : World := exTier exFeatPlaces fun s => if s = 2 then some "mine" else if s = 4 then some "too" else none

theorem exFeat_taken {b : Build} {w : World} {s : Nat} (p q : OsStr) (h : PlaceTaken b w exFeatArgs s)
    (h1 : chosen w (layerCandidates b w "f" ⟨"one", [.path "/a"], some true⟩) = some p)
    (h2 : chosen w (layerCandidates b w "f" ⟨"two", [.path "/c"], none⟩) = some q) : s = w.locate p ∨ s = w.locate q := by
  obtain ⟨l, hl, x, hx, rfl⟩ := h
  simp only [exFeatArgs, List.mem_cons, List.not_mem_nil, or_false] at hl hx
  rcases hl with rfl | rfl
  · rw [h1] at hx; cases hx; exact Or.inl rfl
  · rw [h2] at hx; cases hx; exact Or.inr rfl

theorem exFeat_gained {b b' : Build} {ext : String} (hx : ∀ e, Gained b b' e → e = ext) {w : World} (hw : w.baseDirs ≠ none) {l : LayerSpec}
    (hl : l ∈ exFeatArgs.layers) {p : OsStr} (h : GainedCandidate b b' w "f" l p) :
    p = candidate (os "/a") "f" ext ∨ p = candidate (os "/c") "f" ext := by
  obtain ⟨e, he, d, hd, folder, hf, rfl⟩ := h
  rw [hx e he]
  cases hb : w.baseDirs with
  | none => exact absurd hb hw
  | some dir =>
    simp only [exFeatArgs, List.mem_cons, List.not_mem_nil, or_false] at hl
    rcases hl with rfl | rfl
    · simp at hd; subst hd; simp [OSDirectory.toPathBuf, hb] at hf; subst hf; exact Or.inl rfl
    · simp at hd; subst hd; simp [OSDirectory.toPathBuf, hb] at hf; subst hf; exact Or.inr rfl

/-- Gaining JSON changes nothing for a program with TOML files (one of which it makes now). -/
example : createConfig exB2 exFormats exFeatT exFeatArgs = createConfig exB1 exFormats exFeatT exFeatArgs := by
  refine C137_start exB1 exB2 exMore12 exFormats exFeatT exFeatArgs ⟨fun l hl p hp => ?_, fun l hl p hp ht => ?_⟩ fun _ _ => Or.inl (by decide)
  · rcases exFeat_gained (fun _ => exGained12) (by decide) hl hp with rfl | rfl <;> decide
  · have := exFeat_taken (os "/a/f.toml") (os "/c/f.toml") ht (by decide) (by decide)
    revert this
    rcases exFeat_gained (fun _ => exGained12) (by decide) hl hp with rfl | rfl <;> decide

/-- Gaining TOML changes nothing for a program whose JSON files are all there. -/
example : createConfig exB2 exFormats exFeatJ exFeatArgs = createConfig exBJ exFormats exFeatJ exFeatArgs := by
  refine C137_start exBJ exB2 exMoreJ2 exFormats exFeatJ exFeatArgs ⟨fun l hl p hp => ?_, fun l hl p hp ht => ?_⟩ fun l hl => Or.inr ?_
  · rcases exFeat_gained (fun _ => exGainedJ2) (by decide) hl hp with rfl | rfl <;> decide
  · have := exFeat_taken (os "/a/f.json") (os "/c/f.json") ht (by decide) (by decide)
    revert this
    rcases exFeat_gained (fun _ => exGainedJ2) (by decide) hl hp with rfl | rfl <;> decide
  · simp only [exFeatArgs, List.mem_cons, List.not_mem_nil, or_false] at hl
    rcases hl with rfl | rfl <;> decide

/-- Without formats the JSON files are not even looked for. -/
example : ∃ c, createConfig exB0 exFormats exFeatJ exFeatArgs = .ok (c, exFeatJ) := by
  obtain ⟨dv, -, h⟩ := C137_none exB0 ⟨rfl, rfl⟩ exFormats exFeatJ exFeatArgs
  exact ⟨_, h⟩

/-- The JSON file in `/c` takes over when JSON is gained. -/
example : ∃ c c' w1 w2 cd, createConfig exB1 exFormats exFeatJ exFeatArgs = .ok (c, w1) ∧
    createConfig exB2 exFormats exFeatJ exFeatArgs = .ok (c', w2) ∧
    c'.getLayer "two" = some (.file (textHandler cd) (os "/c/f.json")) ∧
    ((pathExtension (os "/c/f.json") = some (os "toml") ∧ cd = exFormats.toml) ∨ (pathExtension (os "/c/f.json") = some (os "json") ∧ cd = exFormats.json)) ∧
    ∀ h, c.getLayer "two" ≠ some (.file h (os "/c/f.json")) := by
  refine C137_takeover exB1 exB2 exFormats exFeatJ exFeatArgs (plain_of _ (by decide)) (by decide) ⟨"two", [.path "/c"], none⟩ (by simp [exFeatArgs]) (by decide)
    [os "/c/f.toml"] [] (os "/c/f.json") (by decide) (by decide) ?_ ⟨"json", exGained_json, .path "/c", by decide, os "/c", by decide, by decide⟩
  intro p hp
  simp only [List.mem_singleton] at hp
  subst hp
  refine ⟨by decide, fun ht => ?_⟩
  have := exFeat_taken (os "/a/f.json") (os "/c/f.json") ht (by decide) (by decide)
  revert this; decide

/-- The user's JSON settings in `/a` are shadowed by one run of a build without JSON. -/
example : ∃ c w1, createConfig exB1 exFormats exFeatJ exFeatArgs = .ok (c, w1) ∧
    w1.disk 1 = .file (utf8 "dflt") none none ∧
    ∃ c' w2, createConfig exB2 exFormats w1 exFeatArgs = .ok (c', w2) ∧
      c'.getLayer "one" = some (.file (textHandler exCodec) (os "/a/f.toml")) := by
  obtain ⟨c, w1, dv, h1, hdv, -⟩ := C60_order exB1 exFormats exFeatJ exFeatArgs
  have hd : valueMapMacro exFeatArgs.default = some (.map [("text", .string "dflt")]) := by rfl
  obtain ⟨dv', -, hcr⟩ := C61_init_safe exB1 exFormats exFeatJ exFeatArgs (by decide) c w1 h1
  obtain ⟨k1, k2⟩ := C137_shadow exB1 exB2 rfl rfl exFormats exFeatJ exFeatArgs (plain_of _ (by decide)) (by decide) c w1 h1 _ hd
    ⟨"one", [.path "/a"], some true⟩ (by simp [exFeatArgs]) rfl (by decide) (.path "/a") [] rfl (os "/a") (by decide) "dflt" (by rfl)
    (fun code h => by
      have : exFeatJ.disk (exFeatJ.locate (candidate (os "/a") exFeatArgs.fileName "toml")) = .absent none := by decide
      rw [this] at h; cases h) rfl
    (by decide) (fun l' hl' hne hi' => by
      simp only [exFeatArgs, List.mem_cons, List.not_mem_nil, or_false] at hl'
      rcases hl' with rfl | rfl
      · exact absurd rfl hne
      · cases hi')
  have hc : candidate (os "/a") exFeatArgs.fileName "toml" = os "/a/f.toml" := by decide
  rw [hc] at k1 k2
  have hl : w1.locate (os "/a/f.toml") = 1 := by rw [hcr.same.locate]; decide
  rw [hl] at k1
  refine ⟨c, w1, h1, k1, k2 w1 rfl ?_⟩
  unfold World.pathExists
  rw [hl, k1]

end Verif.Props
