import Verif.Lemmas.Layer
import Verif.Spec.Macro
import Verif.Props.Finder
import Verif.Props.Layers
import Verif.Props.Value
/-! # Lemmas about `create_config!` -/
namespace Verif
open Spec Props

theorem foldl_withOs (w : World) (ds : List OSDirectory) : ∀ f : FileFinder,
    (ds.foldl (FileFinder.withOsDirectory w) f) = { f with folders := f.folders ++ ds.filterMap (OSDirectory.toPathBuf w) } := by
  induction ds with
  | nil => intro f; simp
  | cons d ds ih =>
    intro f
    rw [List.foldl_cons, ih, List.filterMap_cons]
    unfold FileFinder.withOsDirectory
    cases d.toPathBuf w <;> simp

theorem macroFinder_eq (b : Build) (w : World) (name : String) (ds : List OSDirectory) :
    ds.foldl (FileFinder.withOsDirectory w) ((FileFinder.new name).withSupportedExtensions b) =
      ⟨ds.filterMap (OSDirectory.toPathBuf w), name, enabled b⟩ := by
  rw [foldl_withOs]
  obtain ⟨h1, h2, h3⟩ := C52_supported b (FileFinder.new name)
  rw [h2, h3, h1]
  simp [FileFinder.new, enabled]

theorem candidates_map (b : Build) (w : World) (name : String) (l : LayerSpec) :
    (candidates ⟨l.dirs.filterMap (OSDirectory.toPathBuf w), name, enabled b⟩).map Prod.fst = layerCandidates b w name l := by
  unfold candidates layerCandidates
  rw [List.map_flatMap]
  congr 1
  funext folder
  rw [List.map_map]; rfl

theorem enabled_noSep (b : Build) : ∀ e ∈ enabled b, '/' ∉ e.toList := by
  unfold enabled
  cases b.toml <;> cases b.json <;> simp <;> decide

theorem find_first_index {α : Type} (p : α → Bool) (l : List α) {a : α} (h : l.find? p = some a) :
    ∃ i : Nat, l[i]? = some a ∧ p a = true ∧ ∀ (j : Nat) d, j < i → l[j]? = some d → p d = false := by
  induction l with
  | nil => cases h
  | cons x l ih =>
    rw [List.find?_cons] at h
    cases hx : p x with
    | true => rw [hx] at h; simp at h; subst h; exact ⟨0, rfl, hx, fun j d hj => by omega⟩
    | false =>
      rw [hx] at h
      obtain ⟨i, h1, h2, h3⟩ := ih h
      refine ⟨i + 1, by simpa using h1, h2, ?_⟩
      intro j d hj hd
      cases j with
      | zero => simp at hd; subst hd; exact hx
      | succ j => exact h3 j d (by omega) (by simpa using hd)

/-- The search of one layer of the macro. -/
theorem layerFinder_spec (b : Build) (w : World) (name : String) (l : LayerSpec) :
    (∃ r, layerFinder b w name l.dirs = .ok r ∧ chosen w (layerCandidates b w name l) = some r.path) ∨
    (∃ e, layerFinder b w name l.dirs = .err e ∧ layerCandidates b w name l = []) := by
  unfold layerFinder
  rw [macroFinder_eq]
  generalize hf : (⟨l.dirs.filterMap (OSDirectory.toPathBuf w), name, enabled b⟩ : FileFinder) = f
  have hc : (candidates f).map Prod.fst = layerCandidates b w name l := hf ▸ candidates_map b w name l
  by_cases h1 : f.folders = []
  · right
    refine ⟨_, ((C49_validation b w f true).1 h1).1, ?_⟩
    rw [← hc]; unfold candidates; rw [h1]; rfl
  · by_cases h2 : f.extensions = []
    · right
      refine ⟨_, ((C49_validation b w f true).2.1 h1 h2).1, ?_⟩
      rw [← hc]; unfold candidates; rw [h2]; simp
    · left
      have hr : Ready f := ⟨h1, h2, by rw [← hf]; exact enabled_noSep b⟩
      unfold chosen
      rw [← hc]
      cases hfd : (candidates f).find? (fun c => w.pathExists c.1) with
      | some c =>
        obtain ⟨i, g1, g2, g3⟩ := find_first_index _ _ hfd
        obtain ⟨r, e1, e2⟩ := (C45_find_first b w f true hr).1 i c g1 g2 g3
        refine ⟨r, e1, ?_⟩
        rw [List.find?_map]
        have : ((fun p => w.pathExists p) ∘ Prod.fst : OsStr × String → Bool) = fun c => w.pathExists c.1 := rfl
        rw [this, hfd, e2.1]; rfl
      | none =>
        have hno : ∀ c ∈ candidates f, w.pathExists c.1 = false := by
          intro c hcm
          have := List.find?_eq_none.1 hfd c hcm
          simpa using this
        obtain ⟨c, r, e1, e2, e3⟩ := ((C45_find_first b w f true hr).2 hno).1 rfl
        refine ⟨r, e2, ?_⟩
        rw [List.find?_map]
        have : ((fun p => w.pathExists p) ∘ Prod.fst : OsStr × String → Bool) = fun c => w.pathExists c.1 := rfl
        rw [this, hfd, List.head?_map, List.head?_eq_getElem?, e1, e3.1]; rfl

theorem chosen_none {w : World} {cs : List OsStr} : chosen w cs = none ↔ cs = [] := by
  unfold chosen
  cases cs with
  | nil => simp
  | cons a cs => simp

theorem chosen_mem {w : World} {cs : List OsStr} {p : OsStr} (h : chosen w cs = some p) : p ∈ cs := by
  unfold chosen at h
  rw [Option.or_eq_some_iff] at h
  rcases h with h | ⟨-, h⟩
  · exact List.mem_of_find?_eq_some h
  · exact List.mem_of_mem_head? h

/-- A chosen file that does not exist is the first candidate, and no candidate exists. -/
theorem chosen_missing {w : World} {cs : List OsStr} {p : OsStr} (h : chosen w cs = some p)
    (hm : w.pathExists p = false) : cs.head? = some p ∧ ∀ q ∈ cs, w.pathExists q = false := by
  unfold chosen at h
  rw [Option.or_eq_some_iff] at h
  rcases h with h | ⟨h1, h2⟩
  · have := List.find?_some h; rw [hm] at this; cases this
  · exact ⟨h2, fun q hq => by simpa using List.find?_eq_none.1 h1 q hq⟩

theorem chosen_of_missing {w : World} {cs : List OsStr} {p : OsStr} (h : cs.head? = some p)
    (hm : ∀ q ∈ cs, w.pathExists q = false) : chosen w cs = some p := by
  unfold chosen
  rw [Option.or_eq_some_iff]
  exact Or.inr ⟨List.find?_eq_none.2 (fun q hq => by simp [hm q hq]), h⟩

/-- One layer of the macro, without the plumbing. -/
def mStep (b : Build) (fm : Formats) (name : String) (dv : Value) (st : Config × World) (l : LayerSpec) : Config × World :=
  match chosen st.2 (layerCandidates b st.2 name l) with
  | none => st
  | some p =>
    ((RegCall.file l.name p).apply b fm st.1,
      initLayer st.2 ((RegCall.file l.name p).apply b fm st.1) ((RegCall.file l.name p).offer b fm).isSome p l dv)

theorem macroLayer_eq (b : Build) (fm : Formats) (name : String) (dv : Value) (st : Config × World) (l : LayerSpec) :
    macroLayer b fm name dv st l = .ok (mStep b fm name dv st l) := by
  unfold macroLayer mStep
  rcases layerFinder_spec b st.2 name l with ⟨r, h1, h2⟩ | ⟨e, h1, h2⟩
  · rw [h1, h2]
    simp only [RegCall.apply, addFileLayer_eq]
    cases (RegCall.file l.name r.path).offer b fm <;> rfl
  · rw [h1, chosen_none.2 h2]

theorem macroLayers_eq (b : Build) (fm : Formats) (name : String) (dv : Value) (ls : List LayerSpec) :
    ∀ st, macroLayers b fm name dv st ls = .ok (ls.foldl (mStep b fm name dv) st) := by
  induction ls with
  | nil => intro st; rfl
  | cons l ls ih =>
    intro st
    rw [macroLayers, macroLayer_eq, Outcome.bind_ok, ih, List.foldl_cons]

theorem createConfig_eq (b : Build) (fm : Formats) (w : World) (args : MacroArgs) :
    ∃ dv, valueMapMacro args.default = some dv ∧
      createConfig b fm w args =
        .ok ((((args.env.map fun pre => RegCall.environment "environment" pre).toList).foldl (RegCall.apply b fm)
              (args.layers.foldl (mStep b fm args.fileName dv) (register b fm [.memory "default" dv], w)).1),
            (args.layers.foldl (mStep b fm args.fileName dv) (register b fm [.memory "default" dv], w)).2) := by
  obtain ⟨dv, h, -⟩ := C19_value_map args.default
  refine ⟨dv, h, ?_⟩
  unfold createConfig
  rw [h]
  simp only []
  have : Config.new.addMemoryLayer "default" dv = register b fm [.memory "default" dv] := rfl
  rw [this, macroLayers_eq, Outcome.bind_ok]
  cases args.env <;> rfl

/-! ### What one layer does to the world -/

theorem initLayer_cases (w : World) (c : Config) (added : Bool) (path : OsStr) (l : LayerSpec) (dv : Value) :
    initLayer w c added path l dv = w ∨
    (l.init = some true ∧ added = true ∧ w.pathExists path = false ∧ ∃ layer, c.getLayer l.name = some layer ∧
      initLayer w c added path l dv = (layer.writeValue w dv).2) := by
  unfold initLayer
  cases hi : l.init with
  | none => exact Or.inl rfl
  | some flag =>
    simp only []
    by_cases h : (added && !w.pathExists path && flag) = true
    · rw [if_pos h]
      simp only [Bool.and_eq_true, Bool.not_eq_true'] at h
      cases hg : c.getLayer l.name with
      | none => exact Or.inl rfl
      | some layer => exact Or.inr ⟨by rw [h.2], h.1.1, h.1.2, layer, rfl, rfl⟩
    · rw [if_neg h]; exact Or.inl rfl

theorem initLayer_no_init {w : World} {c : Config} {added : Bool} {path : OsStr} {l : LayerSpec} {dv : Value}
    (h : l.init ≠ some true) : initLayer w c added path l dv = w := by
  rcases initLayer_cases w c added path l dv with h' | ⟨h', -⟩
  · exact h'
  · exact absurd h' h

theorem Spec.Created.refl (P : Nat → List UInt8 → Prop) (w : World) : Created P w w := ⟨rfl, fun _ => Or.inl rfl⟩

theorem Spec.Created.trans {P : Nat → List UInt8 → Prop} {w w' w'' : World} (h : Created P w w') (h' : Created P w' w'') :
    Created P w w'' := by
  refine ⟨by rw [h'.1, h.1], fun s => ?_⟩
  rcases h'.2 s with e' | ⟨e', bs, p, f⟩
  · rw [e']; exact h.2 s
  · rcases h.2 s with e | ⟨e, bs', q, f'⟩
    · right; exact ⟨by rw [← e, e'], bs, p, f⟩
    · rw [f'] at e'; cases e'

theorem Spec.Created.mono {P Q : Nat → List UInt8 → Prop} {w w' : World} (h : Created P w w') (hpq : ∀ s bs, P s bs → Q s bs) :
    Created Q w w' :=
  ⟨h.1, fun s => (h.2 s).imp id fun ⟨a, bs, b, c⟩ => ⟨a, bs, hpq s bs b, c⟩⟩

/-- The same world but for the disk. -/
def SameEnv (w w' : World) : Prop := w' = { w with disk := w'.disk }

theorem Spec.Created.same {P : Nat → List UInt8 → Prop} {w w' : World} (h : Created P w w') : SameEnv w w' := h.1
theorem SameEnv.refl (w : World) : SameEnv w w := rfl
theorem SameEnv.trans {w w' w'' : World} (h : SameEnv w w') (h' : SameEnv w' w'') : SameEnv w w'' := by
  unfold SameEnv at *; rw [h', h]
theorem SameEnv.locate {w w' : World} (h : SameEnv w w') : w'.locate = w.locate := by rw [h]
theorem SameEnv.baseDirs {w w' : World} (h : SameEnv w w') : w'.baseDirs = w.baseDirs := by rw [h]
theorem SameEnv.cwd {w w' : World} (h : SameEnv w w') : w'.cwd = w.cwd := by rw [h]
theorem SameEnv.room {w w' : World} (h : SameEnv w w') : w'.room = w.room := by rw [h]
theorem SameEnv.env {w w' : World} (h : SameEnv w w') : w'.env = w.env := by rw [h]

theorem SameEnv.candidates {w w' : World} (h : SameEnv w w') (b : Build) (name : String) (l : LayerSpec) :
    layerCandidates b w' name l = layerCandidates b w name l := by
  have : OSDirectory.toPathBuf w' = OSDirectory.toPathBuf w := by
    funext d; unfold OSDirectory.toPathBuf; rw [h.baseDirs, h.cwd]
  unfold layerCandidates; rw [this]

theorem Spec.Created.exists {P : Nat → List UInt8 → Prop} {w w' : World} (h : Created P w w') {p : OsStr}
    (he : w.pathExists p = true) : w'.pathExists p = true := by
  unfold World.pathExists at *
  rw [h.same.locate]
  rcases h.2 (w.locate p) with e | ⟨e, bs, -, f⟩
  · rw [e]; exact he
  · rw [e] at he; cases he

theorem Spec.Created.missing {P : Nat → List UInt8 → Prop} {w w' : World} (h : Created P w w') {p : OsStr}
    (he : w'.pathExists p = false) : w.pathExists p = false ∧ w'.disk (w'.locate p) = w.disk (w.locate p) := by
  constructor
  · cases hw : w.pathExists p with
    | false => rfl
    | true => rw [h.exists hw] at he; cases he
  · unfold World.pathExists at he
    rw [h.same.locate] at he ⊢
    rcases h.2 (w.locate p) with e | ⟨e, bs, -, f⟩
    · exact e
    · rw [f] at he; cases he

/-- What a write of `v` to the file `p` may create there. -/
def Made (c : Codec) (w : World) (p : OsStr) (v : Value) (s : Nat) (bytes : List UInt8) : Prop :=
  s = w.locate p ∧ ∃ text, c.print v.toData = .ok text ∧ bytes <+: utf8 text ∧ (w.room s = none → bytes = utf8 text)

/-- Writing to a file layer whose file does not exist: nothing but this file, which did not exist, may come to be. If it does not,
printing failed or the OS refuses to create it. -/
theorem created_write (c : Codec) (w : World) (p : OsStr) (v : Value) (h : w.pathExists p = false) :
    Created (Made c w p v) w ((Layer.file (textHandler c) p).writeValue w v).2 ∧
    (((Layer.file (textHandler c) p).writeValue w v).2.pathExists p = false →
      (∃ m, c.print v.toData = .error m) ∨ ∃ code, w.disk (w.locate p) = .absent (some code)) := by
  generalize hw : (Layer.file (textHandler c) p).writeValue w v = rw'
  obtain ⟨res, w'⟩ := rw'
  obtain ⟨⟨h0, h1⟩, h2⟩ := C57_write c w p v res w' hw
  have habs : ∃ r, w.disk (w.locate p) = .absent r := by
    unfold World.pathExists at h
    split at h
    · exact ⟨_, by assumption⟩
    · cases h
  obtain ⟨ro, habs⟩ := habs
  have hl : w'.locate p = w.locate p := by rw [h0]
  dsimp only
  simp only [Layer.writeValue, textHandler] at hw
  cases hp : c.print v.toData with
  | error m =>
    rw [hp] at hw; cases hw
    exact ⟨Created.refl _ _, fun _ => Or.inl ⟨m, rfl⟩⟩
  | ok text =>
    rw [hp] at hw
    have fin : ∀ bs, w.disk (w.locate p) = .absent none → bs <+: utf8 text → (w.room (w.locate p) = none → bs = utf8 text) →
        w'.disk (w.locate p) = .file bs none none →
        Created (Made c w p v) w w' ∧ (w'.pathExists p = false →
          (∃ m, (Except.ok text : Except String String) = .error m) ∨ ∃ code, w.disk (w.locate p) = .absent (some code)) := by
      intro bs ha hbs hroom hd2
      refine ⟨⟨h0, fun s => ?_⟩, ?_⟩
      · by_cases hs : s = w.locate p
        · subst hs; right; exact ⟨ha, bs, ⟨rfl, text, hp, hbs, hroom⟩, hd2⟩
        · left; exact h1 s hs
      · intro hm
        unfold World.pathExists at hm
        rw [hl, hd2] at hm; cases hm
    rcases fsWrite_cases w p text with ⟨e, g1, g2⟩ | ⟨n, code, w1, g1, g2, g3, g4⟩ | ⟨w1, g1, g2, g3⟩
    · simp only [g1] at hw; cases hw
      refine ⟨Created.refl _ _, fun _ => Or.inr ?_⟩
      unfold World.openTrunc at g2
      rw [habs] at g2 ⊢
      cases ro with
      | none => simp at g2
      | some code => exact ⟨code, rfl⟩
    · simp only [g4] at hw; cases hw
      obtain ⟨ho, r, hd, hcase⟩ := onlyAt_open g1
      rcases hcase with ⟨ha, rfl⟩ | ⟨bs, ha⟩
      · refine fin _ ha (List.take_prefix _ _) ?_ (by rw [append_file hd]; rfl)
        intro hroom; rw [hroom] at g2; cases g2
      · rw [habs] at ha; cases ha
    · simp only [g3] at hw; cases hw
      obtain ⟨ho, r, hd, hcase⟩ := onlyAt_open g1
      rcases hcase with ⟨ha, rfl⟩ | ⟨bs, ha⟩
      · exact fin _ ha (List.prefix_refl _) (fun _ => rfl) (by rw [append_file hd]; rfl)
      · rw [habs] at ha; cases ha

/-! ### The layers one after the other -/

theorem register_append (b : Build) (fm : Formats) (calls : List RegCall) (c : RegCall) :
    c.apply b fm (register b fm calls) = register b fm (calls ++ [c]) := by
  unfold register; rw [List.foldl_append]; rfl

theorem offer_file {b : Build} {fm : Formats} {n : String} {p : OsStr} {e : String × Layer}
    (h : (RegCall.file n p).offer b fm = some e) : ∃ cd, e = (n, .file (textHandler cd) p) ∧
      ((pathExtension p = some (os "toml") ∧ b.toml = true ∧ cd = fm.toml) ∨
       (pathExtension p = some (os "json") ∧ b.json = true ∧ cd = fm.json)) := by
  simp only [RegCall.offer] at h
  split at h
  · rename_i h'; cases h; exact ⟨_, rfl, Or.inl ⟨h'.2, h'.1, rfl⟩⟩
  · split at h
    · rename_i h'; cases h; exact ⟨_, rfl, Or.inr ⟨h'.2, h'.1, rfl⟩⟩
    · cases h

/-- Layers of the crate's own leave everything but the disk alone. -/
theorem builtin_write_same {b : Build} {fm : Formats} {calls : List RegCall} (hb : ∀ c ∈ calls, c.BuiltIn) {n : String} {l : Layer}
    (h : (register b fm calls).getLayer n = some l) (w : World) (v : Value) : SameEnv w (l.writeValue w v).2 := by
  rw [(C11_first_wins b fm calls n).1, Option.map_eq_some_iff] at h
  obtain ⟨e, he, rfl⟩ := h
  obtain ⟨c, hc, ho⟩ := List.mem_filterMap.1 (List.mem_of_find?_eq_some he)
  have := hb c hc
  cases c with
  | layer => exact this.elim
  | memory => cases ho; rfl
  | environment => cases ho; rfl
  | file n p =>
    obtain ⟨cd, rfl, -⟩ := offer_file ho
    exact (C57_write cd w p v _ _ rfl).1.1

/-- A write to a layer of the crate's own makes no file disappear. -/
theorem builtin_write_exists {b : Build} {fm : Formats} {calls : List RegCall} (hb : ∀ c ∈ calls, c.BuiltIn) {n : String} {l : Layer}
    (h : (register b fm calls).getLayer n = some l) (w : World) (v : Value) (q : OsStr) (hq : w.pathExists q = true) :
    (l.writeValue w v).2.pathExists q = true := by
  rw [(C11_first_wins b fm calls n).1, Option.map_eq_some_iff] at h
  obtain ⟨e, he, rfl⟩ := h
  obtain ⟨c, hc, ho⟩ := List.mem_filterMap.1 (List.mem_of_find?_eq_some he)
  have := hb c hc
  cases c with
  | layer => exact this.elim
  | memory => cases ho; exact hq
  | environment => cases ho; exact hq
  | file n p =>
    obtain ⟨cd, rfl, -⟩ := offer_file ho
    generalize hw : (Layer.file (textHandler cd) p).writeValue w v = r
    obtain ⟨res, w'⟩ := r
    show w'.pathExists q = true
    obtain ⟨⟨h0, h1⟩, h2⟩ := C57_write cd w p v res w' hw
    have hl : w'.locate = w.locate := by rw [h0]
    by_cases hs : w.locate q = w.locate p
    · rcases h2 with ⟨_, _, _, rfl⟩ | ⟨_, _, _, _, _, rfl⟩ | ⟨_, _, _, _, _, _, _, _, h⟩ | ⟨_, _, _, _, h, _⟩
      · exact hq
      · exact hq
      all_goals unfold World.pathExists; rw [hl, hs, h]
    · unfold World.pathExists at hq ⊢
      rw [hl, h1 _ hs]; exact hq

theorem mStep_calls (b : Build) (fm : Formats) (name : String) (dv : Value) (calls : List RegCall) (w : World) (l : LayerSpec)
    (hb : ∀ c ∈ calls, c.BuiltIn) :
    (chosen w (layerCandidates b w name l) = none ∧ mStep b fm name dv (register b fm calls, w) l = (register b fm calls, w)) ∨
    ∃ p w', chosen w (layerCandidates b w name l) = some p ∧
      mStep b fm name dv (register b fm calls, w) l = (register b fm (calls ++ [.file l.name p]), w') ∧ SameEnv w w' ∧
      (l.init ≠ some true → w' = w) ∧ ∀ q, w.pathExists q = true → w'.pathExists q = true := by
  unfold mStep
  dsimp only
  cases hc : chosen w (layerCandidates b w name l) with
  | none => exact Or.inl ⟨rfl, rfl⟩
  | some p =>
    right
    refine ⟨p, initLayer w (register b fm (calls ++ [.file l.name p])) ((RegCall.file l.name p).offer b fm).isSome p l dv, rfl,
      by simp only [register_append], ?_⟩
    have hb' : ∀ c ∈ calls ++ [.file l.name p], c.BuiltIn := by
      intro c hc
      rcases List.mem_append.1 hc with hc | hc
      · exact hb c hc
      · simp at hc; subst hc; trivial
    rcases initLayer_cases w (register b fm (calls ++ [.file l.name p])) ((RegCall.file l.name p).offer b fm).isSome p l dv with
      h | ⟨-, -, -, layer, hg, h⟩
    · rw [h]; exact ⟨SameEnv.refl w, fun _ => rfl, fun _ hq => hq⟩
    · refine ⟨?_, fun h => initLayer_no_init h, ?_⟩
      · rw [h]; exact builtin_write_same hb' hg w dv
      · rw [h]; exact builtin_write_exists hb' hg w dv

theorem foldl_mStep (b : Build) (fm : Formats) (name : String) (dv : Value) (ls : List LayerSpec) :
    ∀ (calls : List RegCall) (w : World), (∀ c ∈ calls, c.BuiltIn) →
    ∃ (paths : List (LayerSpec × OsStr)) (w' : World),
      ls.foldl (mStep b fm name dv) (register b fm calls, w) =
        (register b fm (calls ++ paths.map fun x => .file x.1.name x.2), w') ∧ SameEnv w w' ∧
      paths.map Prod.fst = ls.filter (fun l => !(layerCandidates b w name l).isEmpty) ∧
      (∀ x ∈ paths, x.2 ∈ layerCandidates b w name x.1) ∧
      ((∀ l ∈ ls, l.init ≠ some true) → w' = w ∧ ∀ x ∈ paths, chosen w (layerCandidates b w name x.1) = some x.2) ∧
      (∀ q, w.pathExists q = true → w'.pathExists q = true) ∧
      (∀ x ∈ paths, ∀ q ∈ layerCandidates b w name x.1, w.pathExists q = true → w'.pathExists x.2 = true) := by
  induction ls with
  | nil => intro calls w _; exact ⟨[], w, by simp, SameEnv.refl w, rfl, by simp, by simp, fun _ h => h, by simp⟩
  | cons l ls ih =>
    intro calls w hb
    rw [List.foldl_cons]
    rcases mStep_calls b fm name dv calls w l hb with ⟨h1, h2⟩ | ⟨p, w1, h1, h2, h3, h4, h5⟩
    · rw [h2]
      obtain ⟨paths, w', g1, g2, g3, g4, g5, g6⟩ := ih calls w hb
      refine ⟨paths, w', g1, g2, ?_, g4, fun h => g5 fun x hx => h x (by simp [hx]), g6⟩
      rw [List.filter_cons_of_neg (by rw [chosen_none.1 h1]; simp), g3]
    · rw [h2]
      have hb' : ∀ c ∈ calls ++ [.file l.name p], c.BuiltIn := by
        intro c hc
        rcases List.mem_append.1 hc with hc | hc
        · exact hb c hc
        · simp at hc; subst hc; trivial
      obtain ⟨paths, w', g1, g2, g3, g4, g5, g6, g7⟩ := ih _ w1 hb'
      have hcand := fun l => h3.candidates b name l
      simp only [hcand] at g3 g4 g5 g7
      refine ⟨(l, p) :: paths, w', ?_, h3.trans g2, ?_, ?_, ?_, fun q hq => g6 q (h5 q hq), ?_⟩
      · rw [g1]; simp
      · have hne : layerCandidates b w name l ≠ [] := fun e => by rw [chosen_none.2 e] at h1; cases h1
        rw [List.map_cons, g3, List.filter_cons_of_pos (by simpa using hne)]
      · intro x hx
        rcases List.mem_cons.1 hx with rfl | hx
        · exact chosen_mem h1
        · exact g4 x hx
      · intro h
        obtain ⟨e1, e2⟩ := g5 fun x hx => h x (by simp [hx])
        have : w1 = w := h4 (h l (by simp))
        subst this
        refine ⟨e1, ?_⟩
        intro x hx
        rcases List.mem_cons.1 hx with rfl | hx
        · exact h1
        · exact e2 x hx
      · intro x hx q hq hqe
        rcases List.mem_cons.1 hx with rfl | hx
        · apply g6
          apply h5
          cases hpe : w.pathExists p with
          | true => rfl
          | false => rw [(chosen_missing h1 hpe).2 q hq] at hqe; cases hqe
        · exact g7 x hx q hq (h5 q hqe)

/-! ### Distinct names -/

/-- The format that the extension of the path names. -/
def TextFmt (b : Build) (fm : Formats) (p : OsStr) (cd : Codec) : Prop :=
  (pathExtension p = some (os "toml") ∧ b.toml = true ∧ cd = fm.toml) ∨
  (pathExtension p = some (os "json") ∧ b.json = true ∧ cd = fm.json)

theorem TextFmt.unique {b : Build} {fm : Formats} {p q : OsStr} {cd cd' : Codec} (h : TextFmt b fm p cd) (h' : TextFmt b fm q cd')
    (he : pathExtension p = pathExtension q) : cd = cd' := by
  have ne : ¬ os "toml" = os "json" := by decide
  rcases h with ⟨h1, -, rfl⟩ | ⟨h1, -, rfl⟩ <;> rcases h' with ⟨g1, -, rfl⟩ | ⟨g1, -, rfl⟩
  · rfl
  · rw [h1, g1] at he; exact absurd (Option.some.inj he) ne
  · rw [h1, g1] at he; exact absurd (Option.some.inj he).symm ne
  · rfl

theorem TextFmt.offer {b : Build} {fm : Formats} {p : OsStr} {cd : Codec} (h : TextFmt b fm p cd) (n : String) :
    (RegCall.file n p).offer b fm = some (n, .file (textHandler cd) p) := by
  have ne : ¬ os "json" = os "toml" := by decide
  rcases h with ⟨h1, h2, rfl⟩ | ⟨h1, h2, rfl⟩
  · simp [RegCall.offer, h1, h2]
  · simp [RegCall.offer, h1, h2, ne]

theorem getLayer_append_ne (b : Build) (fm : Formats) (calls : List RegCall) (n m : String) (p : OsStr) (h : m ≠ n) :
    (register b fm (calls ++ [.file n p])).getLayer m = (register b fm calls).getLayer m := by
  rw [(C11_first_wins b fm _ m).1, (C11_first_wins b fm _ m).1]
  unfold offers
  rw [List.filterMap_append, List.find?_append]
  have : (List.filterMap (RegCall.offer b fm) [.file n p]).find? (fun e => e.1 == m) = none := by
    rw [List.find?_eq_none]
    intro e he
    obtain ⟨c, hc, ho⟩ := List.mem_filterMap.1 he
    simp at hc; subst hc
    obtain ⟨cd, rfl, -⟩ := offer_file ho
    simpa using Ne.symm h
  rw [this, Option.or_none]

theorem getLayer_append_new (b : Build) (fm : Formats) (calls : List RegCall) (n : String) (p : OsStr) (cd : Codec)
    (h : (register b fm calls).getLayer n = none) (hf : TextFmt b fm p cd) :
    (register b fm (calls ++ [.file n p])).getLayer n = some (.file (textHandler cd) p) := by
  rw [(C11_first_wins b fm _ n).1] at h ⊢
  unfold offers at h ⊢
  rw [List.filterMap_append, List.find?_append]
  rw [Option.map_eq_none_iff] at h
  rw [h, Option.none_or, List.filterMap_cons, hf.offer n]
  simp

/-- Nothing more would be written for this layer. -/
def Stuck (b : Build) (fm : Formats) (name : String) (dv : Value) (u : World) (l : LayerSpec) : Prop :=
  ∀ p cd, chosen u (layerCandidates b u name l) = some p → l.init = some true → TextFmt b fm p cd →
    u.pathExists p = true ∨ (∃ m, cd.print dv.toData = .error m) ∨ ∃ code, u.disk (u.locate p) = .absent (some code)

theorem Stuck.later {b : Build} {fm : Formats} {name : String} {dv : Value} {u u' : World} {l : LayerSpec}
    {P : Nat → List UInt8 → Prop} (h : Stuck b fm name dv u l) (hc : Created P u u') : Stuck b fm name dv u' l := by
  intro p cd h1 h2 h3
  rw [hc.same.candidates] at h1
  cases he : u'.pathExists p with
  | true => exact Or.inl rfl
  | false =>
    right
    obtain ⟨g1, g2⟩ := chosen_missing h1 he
    have := h p cd (chosen_of_missing g1 (fun q hq => (hc.missing (g2 q hq)).1)) h2 h3
    rcases this with h | h | ⟨code, h⟩
    · rw [(hc.missing he).1] at h; cases h
    · exact Or.inl h
    · exact Or.inr ⟨code, by rw [(hc.missing he).2, h]⟩

/-- The name is not in use, or by a memory layer. -/
def Free (b : Build) (fm : Formats) (calls : List RegCall) (n : String) : Prop :=
  (register b fm calls).getLayer n = none ∨ ∃ v, (register b fm calls).getLayer n = some (.memory v)

theorem mStep_free (b : Build) (fm : Formats) (name : String) (dv : Value) (calls : List RegCall) (w : World) (l : LayerSpec)
    (hf : Free b fm calls l.name) :
    ((mStep b fm name dv (register b fm calls, w) l).2 = w ∧
      ((register b fm calls).getLayer l.name = none → Stuck b fm name dv w l)) ∨
    (l.init = some true ∧ (register b fm calls).getLayer l.name = none ∧ ∃ p cd, chosen w (layerCandidates b w name l) = some p ∧
      TextFmt b fm p cd ∧ w.pathExists p = false ∧
      (mStep b fm name dv (register b fm calls, w) l).2 = ((Layer.file (textHandler cd) p).writeValue w dv).2) := by
  unfold mStep
  dsimp only
  cases hc : chosen w (layerCandidates b w name l) with
  | none => left; exact ⟨rfl, fun _ p cd h => by rw [hc] at h; cases h⟩
  | some p =>
    dsimp only
    rw [register_append]
    rcases hf with hf | ⟨v, hf⟩
    · rcases hoff : (RegCall.file l.name p).offer b fm with _ | e
      · left
        constructor
        · simp [initLayer]
          cases l.init <;> rfl
        · intro _ p' cd h1 _ h3
          rw [hc] at h1; cases h1
          rw [h3.offer l.name] at hoff; cases hoff
      · obtain ⟨cd, rfl, hcd⟩ := offer_file hoff
        have hg := getLayer_append_new b fm calls l.name p cd hf hcd
        by_cases h : l.init = some true ∧ w.pathExists p = false
        · right
          refine ⟨h.1, hf, p, cd, rfl, hcd, h.2, ?_⟩
          simp [initLayer, h.1, h.2, hg]
        · left
          constructor
          · unfold initLayer
            cases hi : l.init with
            | none => rfl
            | some flag =>
              rw [hi] at h
              cases flag with
              | false => simp
              | true =>
                have : w.pathExists p = true := by
                  cases hp : w.pathExists p with
                  | true => rfl
                  | false => exact absurd ⟨rfl, hp⟩ h
                simp [this]
          · intro _ p' cd' h1 h2 _
            rw [hc] at h1; cases h1
            left
            cases hp : w.pathExists p with
            | true => rfl
            | false => exact absurd ⟨h2, hp⟩ h
    · left
      constructor
      · have hg := C11_stable b fm calls [.file l.name p] l.name _ hf
        rcases initLayer_cases w (register b fm (calls ++ [.file l.name p])) ((RegCall.file l.name p).offer b fm).isSome p l dv
          with h | ⟨-, -, -, layer, hg', h⟩
        · exact h
        · rw [h]
          rw [hg] at hg'; cases hg'; rfl
      · intro h; rw [hf] at h; cases h

theorem mStep_config (b : Build) (fm : Formats) (name : String) (dv : Value) (calls : List RegCall) (w : World) (l : LayerSpec) :
    (mStep b fm name dv (register b fm calls, w) l).1 = register b fm calls ∨
    ∃ p, (mStep b fm name dv (register b fm calls, w) l).1 = register b fm (calls ++ [.file l.name p]) := by
  unfold mStep
  dsimp only
  cases chosen w (layerCandidates b w name l) with
  | none => exact Or.inl rfl
  | some p => exact Or.inr ⟨p, register_append b fm calls (.file l.name p)⟩

/-- What one of these layers may create. -/
def MadeBy (b : Build) (fm : Formats) (name : String) (dv : Value) (w : World) (ls : List LayerSpec) (s : Nat)
    (bytes : List UInt8) : Prop :=
  ∃ l ∈ ls, l.init = some true ∧ ∃ p, (layerCandidates b w name l).head? = some p ∧ s = w.locate p ∧
    ∃ cd text, TextFmt b fm p cd ∧ cd.print dv.toData = .ok text ∧ bytes <+: utf8 text ∧ (w.room s = none → bytes = utf8 text)

theorem foldl_distinct (b : Build) (fm : Formats) (name : String) (dv : Value) (ls : List LayerSpec) :
    ∀ (calls : List RegCall) (w : World), (ls.map LayerSpec.name).Nodup → (∀ l ∈ ls, Free b fm calls l.name) →
      Created (MadeBy b fm name dv w ls) w (ls.foldl (mStep b fm name dv) (register b fm calls, w)).2 ∧
      ∀ l ∈ ls, (register b fm calls).getLayer l.name = none →
        Stuck b fm name dv (ls.foldl (mStep b fm name dv) (register b fm calls, w)).2 l := by
  induction ls with
  | nil => intro calls w _ _; exact ⟨Created.refl _ _, by simp⟩
  | cons l ls ih =>
    intro calls w hn hfree
    rw [List.map_cons, List.nodup_cons] at hn
    rw [List.foldl_cons]
    generalize hst : mStep b fm name dv (register b fm calls, w) l = st
    obtain ⟨c1, w1⟩ := st
    -- the step
    have hstep : Created (MadeBy b fm name dv w (l :: ls)) w w1 ∧
        ((register b fm calls).getLayer l.name = none → Stuck b fm name dv w1 l) := by
      rcases mStep_free b fm name dv calls w l (hfree l (by simp)) with ⟨h1, h2⟩ | ⟨h1, h2, p, cd, h3, h4, h5, h6⟩
      · rw [hst] at h1; dsimp only at h1; subst h1; exact ⟨Created.refl _ _, h2⟩
      · rw [hst] at h6; dsimp only at h6; subst h6
        obtain ⟨g1, g2⟩ := created_write cd w p dv h5
        refine ⟨g1.mono ?_, fun _ => ?_⟩
        · rintro s bs ⟨rfl, text, e1, e2, e3⟩
          exact ⟨l, by simp, h1, p, (chosen_missing h3 h5).1, rfl, cd, text, h4, e1, e2, e3⟩
        · intro p' cd' k1 k2 k3
          rw [g1.same.candidates] at k1
          cases he : ((Layer.file (textHandler cd) p).writeValue w dv).2.pathExists p' with
          | true => exact Or.inl rfl
          | false =>
            right
            obtain ⟨j1, j2⟩ := chosen_missing k1 he
            have : chosen w (layerCandidates b w name l) = some p' := chosen_of_missing j1 (fun q hq => (g1.missing (j2 q hq)).1)
            rw [h3] at this; cases this
            have : cd' = cd := k3.unique h4 rfl
            subst this
            rcases g2 he with h | ⟨code, h⟩
            · exact Or.inl h
            · exact Or.inr ⟨code, by rw [(g1.missing he).2, h]⟩
    have hcalls : ∃ calls', c1 = register b fm calls' ∧ ∀ m, m ≠ l.name →
        (register b fm calls').getLayer m = (register b fm calls).getLayer m := by
      rcases mStep_config b fm name dv calls w l with h | ⟨p, h⟩
      · rw [hst] at h; exact ⟨calls, h, fun _ _ => rfl⟩
      · rw [hst] at h; exact ⟨_, h, fun m hm => getLayer_append_ne b fm calls l.name m p hm⟩
    obtain ⟨calls', rfl, hget⟩ := hcalls
    have hne : ∀ x ∈ ls, x.name ≠ l.name := fun x hx e => hn.1 (e ▸ List.mem_map_of_mem hx)
    have hfree' : ∀ x ∈ ls, Free b fm calls' x.name := by
      intro x hx
      unfold Free
      rw [hget _ (hne x hx)]
      exact hfree x (by simp [hx])
    obtain ⟨r1, r2⟩ := ih calls' w1 hn.2 hfree'
    have r1' : Created (MadeBy b fm name dv w (l :: ls)) w1
        (ls.foldl (mStep b fm name dv) (register b fm calls', w1)).2 := by
      refine r1.mono ?_
      rintro s bs ⟨x, hx, e1, p, e2, e3, cd, text, e4, e5, e6, e7⟩
      have hs := hstep.1.same
      rw [hs.candidates] at e2
      rw [hs.locate] at e3
      rw [hs.room] at e7
      exact ⟨x, by simp [hx], e1, p, e2, e3, cd, text, e4, e5, e6, e7⟩
    refine ⟨hstep.1.trans r1', ?_⟩
    intro x hx hg
    rcases List.mem_cons.1 hx with rfl | hx
    · exact (hstep.2 hg).later r1'
    · exact r2 x hx (by rw [hget _ (hne x hx)]; exact hg)

/-- A run over layers for which nothing more would be written changes nothing. -/
theorem foldl_stuck (b : Build) (fm : Formats) (name : String) (dv : Value) (ls : List LayerSpec) :
    ∀ (calls : List RegCall) (w : World), (ls.map LayerSpec.name).Nodup → (∀ l ∈ ls, Free b fm calls l.name) →
      (∀ l ∈ ls, (register b fm calls).getLayer l.name = none → Stuck b fm name dv w l) →
      (ls.foldl (mStep b fm name dv) (register b fm calls, w)).2 = w := by
  induction ls with
  | nil => intro calls w _ _ _; rfl
  | cons l ls ih =>
    intro calls w hn hfree hstuck
    rw [List.map_cons, List.nodup_cons] at hn
    rw [List.foldl_cons]
    generalize hst : mStep b fm name dv (register b fm calls, w) l = st
    obtain ⟨c1, w1⟩ := st
    have hw : w1 = w := by
      rcases mStep_free b fm name dv calls w l (hfree l (by simp)) with ⟨h1, h2⟩ | ⟨h1, h2, p, cd, h3, h4, h5, h6⟩
      · rw [hst] at h1; exact h1
      · rw [hst] at h6; dsimp only at h6; subst h6
        have := hstuck l (by simp) h2 p cd h3 h1 h4
        simp only [Layer.writeValue, textHandler]
        rcases this with h | ⟨m, h⟩ | ⟨code, h⟩
        · rw [h5] at h; cases h
        · rw [h]
        · cases hp : cd.print dv.toData with
          | error m => rfl
          | ok text =>
            have : w.fsWrite p text = (.error (.refused code), w) := by
              unfold World.fsWrite World.openTrunc; rw [h]
            simp only [this]
    have hcalls : ∃ calls', c1 = register b fm calls' ∧ ∀ m, m ≠ l.name →
        (register b fm calls').getLayer m = (register b fm calls).getLayer m := by
      rcases mStep_config b fm name dv calls w l with h | ⟨p, h⟩
      · rw [hst] at h; exact ⟨calls, h, fun _ _ => rfl⟩
      · rw [hst] at h; exact ⟨_, h, fun m hm => getLayer_append_ne b fm calls l.name m p hm⟩
    obtain ⟨calls', rfl, hget⟩ := hcalls
    subst hw
    have hne : ∀ x ∈ ls, x.name ≠ l.name := fun x hx e => hn.1 (e ▸ List.mem_map_of_mem hx)
    apply ih calls' w1 hn.2
    · intro x hx
      unfold Free
      rw [hget _ (hne x hx)]
      exact hfree x (by simp [hx])
    · intro x hx hg
      exact hstuck x (by simp [hx]) (by rw [← hget _ (hne x hx)]; exact hg)

theorem free_start (b : Build) (fm : Formats) (dv : Value) (n : String) : Free b fm [.memory "default" dv] n := by
  unfold Free
  rw [(C11_first_wins b fm _ n).1]
  simp only [offers, List.filterMap_cons, RegCall.offer, List.filterMap_nil, List.find?_cons, List.find?_nil]
  by_cases h : ("default" == n) = true
  · simp [h]
  · have : ("default" == n) = false := by simpa using h
    simp [this]

end Verif
