import Verif.Spec.MacroRace
import Verif.Props.Race
import Verif.Props.Macro
/-! # C80: `create_config!` among other processes -/
namespace Verif.Props
open Spec FileFinder

theorem layerFinderR_spec (b : Build) (m : LayerMoments) (name : String) (l : LayerSpec) :
    (∃ r, layerFinderR b m name l.dirs = .ok r ∧ Seen m.search (layerCandidates b m.dirs name l) r.path) ∨
    (∃ e, layerFinderR b m name l.dirs = .err e ∧ layerCandidates b m.dirs name l = []) := by
  unfold layerFinderR
  rw [macroFinder_eq]
  generalize hf : (⟨l.dirs.filterMap (OSDirectory.toPathBuf m.dirs), name, enabled b⟩ : FileFinder) = f
  have hc : (candidates f).map Prod.fst = layerCandidates b m.dirs name l := hf ▸ candidates_map b m.dirs name l
  by_cases h1 : f.folders = []
  · right
    refine ⟨.fileFinderError .noFoldersDefined, ?_, ?_⟩
    · simp [findFirstR, validate, h1]
    · rw [← hc]; unfold candidates; rw [h1]; rfl
  · by_cases h2 : f.extensions = []
    · right
      refine ⟨.fileFinderError .noExtensionsDefined, ?_, ?_⟩
      · simp [findFirstR, validate, h1, h2]
      · rw [← hc]; unfold candidates; rw [h2]; simp
    · left
      have hr : Ready f := ⟨h1, h2, by rw [← hf]; exact enabled_noSep b⟩
      obtain ⟨look, flag, -, g1, g2⟩ := C70_find_first b m.search f true hr
      by_cases hex : ∃ (i : Nat) (c : OsStr × String), (candidates f)[i]? = some c ∧ (m.search (look i)).pathExists c.1 = true
      · obtain ⟨i, ⟨c, hi, hci⟩, hmin⟩ : ∃ i : Nat, (∃ c : OsStr × String, (candidates f)[i]? = some c ∧ (m.search (look i)).pathExists c.1 = true) ∧
            ∀ j : Nat, j < i → ¬ ∃ c : OsStr × String, (candidates f)[j]? = some c ∧ (m.search (look j)).pathExists c.1 = true := by
          classical
          exact ⟨Nat.find hex, Nat.find_spec hex, fun j hj => Nat.find_min hex hj⟩
        have hmiss : ∀ (j : Nat) d, j < i → (candidates f)[j]? = some d → (m.search (look j)).pathExists d.1 = false := by
          intro j d hj hd
          by_contra hne
          exact hmin j hj ⟨d, hd, by simpa using hne⟩
        obtain ⟨r, e1, e2⟩ := g1 i c hi hci hmiss
        refine ⟨r, e1, Or.inl ⟨i, ?_, ⟨look i, ?_⟩, ?_⟩⟩
        · rw [← hc, List.getElem?_map, hi, e2.1]; rfl
        · rw [e2.1]; exact hci
        · intro j q hj hq
          rw [← hc, List.getElem?_map, Option.map_eq_some_iff] at hq
          obtain ⟨d, hd, rfl⟩ := hq
          exact ⟨look j, hmiss j d hj hd⟩
      · have hmiss : ∀ (j : Nat) d, (candidates f)[j]? = some d → (m.search (look j)).pathExists d.1 = false := by
          intro j d hd
          by_contra hne
          exact hex ⟨j, d, hd, by simpa using hne⟩
        obtain ⟨c, r, e1, e2, e3⟩ := (g2 hmiss).1 rfl
        refine ⟨r, e2, Or.inr ⟨?_, ?_⟩⟩
        · rw [← hc, List.head?_map, List.head?_eq_getElem?, e1, e3.1]; rfl
        · intro q hq
          rw [← hc] at hq
          obtain ⟨j, hj⟩ := List.mem_iff_getElem?.1 hq
          rw [List.getElem?_map, Option.map_eq_some_iff] at hj
          obtain ⟨d, hd, rfl⟩ := hj
          exact ⟨look j, hmiss j d hd⟩

/-- One layer, without the plumbing. -/
theorem macroLayerR_eq (b : Build) (fm : Formats) (name : String) (dv : Value) (calls : List RegCall) (os' : List Wrote) (l : LayerSpec)
    (m : LayerMoments) :
    (layerCandidates b m.dirs name l = [] ∧ macroLayerR b fm name dv (register b fm calls, os') l m = .ok (register b fm calls, os')) ∨
    ∃ p, Seen m.search (layerCandidates b m.dirs name l) p ∧ layerCandidates b m.dirs name l ≠ [] ∧
      macroLayerR b fm name dv (register b fm calls, os') l m = .ok (register b fm (calls ++ [.file l.name p]),
        os' ++ initLayerR m (register b fm (calls ++ [.file l.name p])) ((RegCall.file l.name p).offer b fm).isSome p l dv) := by
  unfold macroLayerR
  rcases layerFinderR_spec b m name l with ⟨r, h1, h2⟩ | ⟨e, h1, h2⟩
  · right
    refine ⟨r.path, h2, ?_, ?_⟩
    · intro e
      rw [e] at h2
      rcases h2 with ⟨i, h, -⟩ | ⟨h, -⟩ <;> cases h
    · rw [h1]
      simp only
      rw [← register_append]
      simp only [RegCall.apply, addFileLayer_eq]
      cases (RegCall.file l.name r.path).offer b fm <;> rfl
  · left
    exact ⟨h2, by rw [h1]⟩

/-- The write that one registered layer issues: if it is marked `init: true`, its path was missing when checked, and its extension
names an enabled format. -/
def issued (b : Build) (fm : Formats) (dv : Value) (x : (LayerSpec × LayerMoments) × OsStr) : Option Wrote :=
  if x.1.1.init = some true ∧ x.1.2.check.pathExists x.2 = false then
    ((RegCall.file x.1.1.name x.2).offer b fm).map fun e =>
      ⟨x.1.1.name, e.2, x.1.2.write, dv, e.2.writeValue x.1.2.write dv⟩
  else none

/-- No call offers a layer under this name. -/
def NameFree (b : Build) (fm : Formats) (calls : List RegCall) (n : String) : Prop := ∀ e ∈ offers b fm calls, e.1 ≠ n

theorem getLayer_new {b : Build} {fm : Formats} {calls : List RegCall} {n : String} {p : OsStr} (h : NameFree b fm calls n) :
    (register b fm (calls ++ [.file n p])).getLayer n = ((RegCall.file n p).offer b fm).map Prod.snd := by
  rw [(C11_first_wins b fm (calls ++ [RegCall.file n p]) n).1]
  have ho : offers b fm (calls ++ [.file n p]) = offers b fm calls ++ ((RegCall.file n p).offer b fm).toList := by
    unfold offers; rw [List.filterMap_append]; congr 1
  have hnone : (offers b fm calls).find? (fun e => e.1 == n) = none := List.find?_eq_none.2 fun e he => by simpa using h e he
  rw [ho, List.find?_append, hnone, Option.none_or]
  cases hx : (RegCall.file n p).offer b fm with
  | none => rfl
  | some e =>
    obtain ⟨cd, rfl, -⟩ := offer_file hx
    simp

theorem initLayerR_issued (b : Build) (fm : Formats) (dv : Value) (calls : List RegCall) (l : LayerSpec) (m : LayerMoments) (p : OsStr)
    (h : NameFree b fm calls l.name) :
    initLayerR m (register b fm (calls ++ [.file l.name p])) ((RegCall.file l.name p).offer b fm).isSome p l dv =
      (issued b fm dv ((l, m), p)).toList := by
  unfold initLayerR issued
  rw [getLayer_new h]
  cases hi : l.init with
  | none => simp [hi]
  | some flag =>
    cases flag with
    | false => simp [hi]
    | true =>
      cases he : m.check.pathExists p with
      | true => simp [he]
      | false =>
        cases ho : (RegCall.file l.name p).offer b fm with
        | none => simp [hi, he]
        | some e => simp [hi, he]

theorem macroLayersR_eq (b : Build) (fm : Formats) (name : String) (dv : Value) (lms : List (LayerSpec × LayerMoments)) :
    ∀ (calls : List RegCall) (os' : List Wrote),
    ∃ (files : List ((LayerSpec × LayerMoments) × OsStr)) (os'' : List Wrote),
      macroLayersR b fm name dv (register b fm calls, os') lms =
        .ok (register b fm (calls ++ files.map fun x => .file x.1.1.name x.2), os' ++ os'') ∧
      files.map Prod.fst = lms.filter (fun x => !(layerCandidates b x.2.dirs name x.1).isEmpty) ∧
      (∀ x ∈ files, Seen x.1.2.search (layerCandidates b x.1.2.dirs name x.1.1) x.2) ∧
      ((∀ x ∈ lms, NameFree b fm calls x.1.name) → (lms.map fun x => x.1.name).Nodup → os'' = files.filterMap (issued b fm dv)) := by
  induction lms with
  | nil => intro calls os'; exact ⟨[], [], by simp [macroLayersR], rfl, by simp, by simp⟩
  | cons x lms ih =>
    obtain ⟨l, m⟩ := x
    intro calls os'
    rw [macroLayersR]
    rcases macroLayerR_eq b fm name dv calls os' l m with ⟨h1, h2⟩ | ⟨p, h1, hne, h2⟩
    · rw [h2, Outcome.bind_ok]
      obtain ⟨files, os'', g1, g2, g3, g4⟩ := ih calls os'
      refine ⟨files, os'', g1, ?_, g3, fun k1 k2 => g4 (fun x hx => k1 x (by simp [hx])) (by simp at k2; simpa using k2.2)⟩
      rw [List.filter_cons_of_neg (by simp [h1]), g2]
    · rw [h2, Outcome.bind_ok]
      obtain ⟨files, os'', g1, g2, g3, g4⟩ := ih (calls ++ [.file l.name p])
        (os' ++ initLayerR m (register b fm (calls ++ [.file l.name p])) ((RegCall.file l.name p).offer b fm).isSome p l dv)
      refine ⟨((l, m), p) :: files,
        initLayerR m (register b fm (calls ++ [.file l.name p])) ((RegCall.file l.name p).offer b fm).isSome p l dv ++ os'', ?_, ?_, ?_, ?_⟩
      · rw [g1]; simp
      · rw [List.map_cons, g2, List.filter_cons_of_pos (by simpa using hne)]
      · intro x hx
        rcases List.mem_cons.1 hx with rfl | hx
        · exact h1
        · exact g3 x hx
      · intro k1 k2
        have k1' := k1 (l, m) (by simp)
        rw [List.map_cons, List.nodup_cons] at k2
        have : os'' = files.filterMap (issued b fm dv) := by
          refine g4 (fun x hx e he => ?_) k2.2
          rw [offers, List.filterMap_append, List.mem_append] at he
          rcases he with he | he
          · exact k1 x (by simp [hx]) e he
          · simp only [List.filterMap_cons, List.filterMap_nil] at he
            cases ho : (RegCall.file l.name p).offer b fm with
            | none => rw [ho] at he; cases he
            | some e' =>
              rw [ho] at he
              simp only [List.mem_singleton] at he
              subst he
              obtain ⟨cd, rfl, -⟩ := offer_file ho
              intro hn
              exact k2.1 (List.mem_map.2 ⟨x, hx, hn.symm⟩)
        rw [initLayerR_issued b fm dv calls l m p k1', this, List.filterMap_cons]
        cases issued b fm dv ((l, m), p) <;> rfl

theorem fst_zip_sublist {α β : Type} (a : List α) : ∀ b : List β, ((a.zip b).map Prod.fst).Sublist a := by
  induction a with
  | nil => intro b; simp
  | cons x a ih =>
    intro b
    cases b with
    | nil => simp
    | cons y b => simp only [List.zip_cons_cons, List.map_cons]; exact (ih b).cons_cons x

theorem createConfigR_eq (b : Build) (fm : Formats) (args : MacroArgs) (ms : List LayerMoments) :
    ∃ (dv : Value) (files : List ((LayerSpec × LayerMoments) × OsStr)) (writes : List Wrote),
      valueMapMacro args.default = some dv ∧
      createConfigR b fm args ms = .ok (register b fm ([.memory "default" dv] ++ files.map (fun x => .file x.1.1.name x.2) ++
          (args.env.map fun pre => .environment "environment" pre).toList), writes) ∧
      files.map Prod.fst = (args.layers.zip ms).filter (fun x => !(layerCandidates b x.2.dirs args.fileName x.1).isEmpty) ∧
      (∀ x ∈ files, Seen x.1.2.search (layerCandidates b x.1.2.dirs args.fileName x.1.1) x.2) ∧
      (("default" :: args.layers.map LayerSpec.name).Nodup → writes = files.filterMap (issued b fm dv)) := by
  obtain ⟨dv, h, -⟩ := C19_value_map args.default
  obtain ⟨files, os', g1, g2, g3, g4⟩ := macroLayersR_eq b fm args.fileName dv (args.layers.zip ms) [.memory "default" dv] []
  refine ⟨dv, files, os', h, ?_, g2, g3, ?_⟩
  · unfold createConfigR
    rw [h]
    simp only
    have : Config.new.addMemoryLayer "default" dv = register b fm [.memory "default" dv] := rfl
    rw [this, g1, Outcome.bind_ok]
    cases args.env with
    | none => simp
    | some pre =>
      simp only [Option.map_some, Option.toList_some, List.nil_append]
      rw [← register_append]; rfl
  · intro hn
    rw [List.nodup_cons] at hn
    have hsub : ((args.layers.zip ms).map fun x => x.1.name).Sublist (args.layers.map LayerSpec.name) := by
      have : (args.layers.zip ms).map (fun x => x.1.name) = ((args.layers.zip ms).map Prod.fst).map LayerSpec.name := by
        rw [List.map_map]; rfl
      rw [this]
      apply List.Sublist.map
      exact fst_zip_sublist _ _
    refine g4 ?_ (hsub.nodup hn.2)
    intro x hx e he
    simp only [offers, List.filterMap_cons, List.filterMap_nil, RegCall.offer, List.mem_singleton] at he
    subst he
    intro hname
    exact hn.1 (hsub.subset (List.mem_map.2 ⟨x, hx, hname.symm⟩))

/-- **C80.** Whatever other processes do to the filesystem and the environment while `create_config!` runs, it succeeds, and the
configuration has, in this order: the memory layer `default`; for each layer that has a candidate a file layer whose path the search
has seen (or, all candidates having been seen missing, its first candidate); and the environment layer if asked for. -/
theorem C80_config (b : Build) (fm : Formats) (args : MacroArgs) (ms : List LayerMoments) :
    ∃ (dv : Value) (files : List ((LayerSpec × LayerMoments) × OsStr)) (writes : List Wrote),
      valueMapMacro args.default = some dv ∧
      createConfigR b fm args ms = .ok (register b fm ([.memory "default" dv] ++ files.map (fun x => .file x.1.1.name x.2) ++
          (args.env.map fun pre => .environment "environment" pre).toList), writes) ∧
      files.map Prod.fst = (args.layers.zip ms).filter (fun x => !(layerCandidates b x.2.dirs args.fileName x.1).isEmpty) ∧
      (∀ x ∈ files, Seen x.1.2.search (layerCandidates b x.1.2.dirs args.fileName x.1.1) x.2) := by
  obtain ⟨dv, files, writes, h1, h2, h3, h4, -⟩ := createConfigR_eq b fm args ms
  exact ⟨dv, files, writes, h1, h2, h3, h4⟩

theorem issued_some {b : Build} {fm : Formats} {dv : Value} {x : (LayerSpec × LayerMoments) × OsStr} {o : Wrote}
    (h : issued b fm dv x = some o) : x.1.1.init = some true ∧ x.1.2.check.pathExists x.2 = false ∧
      ∃ cd, ((pathExtension x.2 = some (os "toml") ∧ b.toml = true ∧ cd = fm.toml) ∨
        (pathExtension x.2 = some (os "json") ∧ b.json = true ∧ cd = fm.json)) ∧
      o = ⟨x.1.1.name, .file (textHandler cd) x.2, x.1.2.write, dv, (Layer.file (textHandler cd) x.2).writeValue x.1.2.write dv⟩ := by
  unfold issued at h
  split at h
  · rename_i hc
    rw [Option.map_eq_some_iff] at h
    obtain ⟨e, he, rfl⟩ := h
    obtain ⟨cd, rfl, hcd⟩ := offer_file he
    exact ⟨hc.1, hc.2, cd, hcd, rfl⟩
  · cases h

/-- **C80.** Layers with distinct names (none called `default`): every write belongs to a layer marked `init: true`; it goes through
a file layer of the format that the extension names, to a path that the search answered and that was missing when checked; what it
writes are the defaults; there is at most one per layer, in the order of the layers. And no layer with all this is left out. -/
theorem C80_writes (b : Build) (fm : Formats) (args : MacroArgs) (ms : List LayerMoments)
    (hn : ("default" :: args.layers.map LayerSpec.name).Nodup) (c : Config) (writes : List Wrote)
    (h : createConfigR b fm args ms = .ok (c, writes)) (dv : Value) (hdv : valueMapMacro args.default = some dv) :
    (writes.map Wrote.layer).Sublist (args.layers.map LayerSpec.name) ∧
    (∀ o ∈ writes, ∃ l m p cd, (l, m) ∈ args.layers.zip ms ∧ Seen m.search (layerCandidates b m.dirs args.fileName l) p ∧
      l.init = some true ∧ m.check.pathExists p = false ∧
      ((pathExtension p = some (os "toml") ∧ b.toml = true ∧ cd = fm.toml) ∨
        (pathExtension p = some (os "json") ∧ b.json = true ∧ cd = fm.json)) ∧
      o.layer = l.name ∧ o.through = .file (textHandler cd) p ∧ o.at' = m.write ∧ o.value = dv ∧
      o.result = (Layer.file (textHandler cd) p).writeValue m.write dv) ∧
    (∀ l m, (l, m) ∈ args.layers.zip ms → l.init = some true → layerCandidates b m.dirs args.fileName l ≠ [] →
      (∀ p ∈ layerCandidates b m.dirs args.fileName l, m.check.pathExists p = false ∧
        ((pathExtension p = some (os "toml") ∧ b.toml = true) ∨ (pathExtension p = some (os "json") ∧ b.json = true))) →
      ∃ o ∈ writes, o.layer = l.name) := by
  obtain ⟨dv', files, writes', h1, h2, h3, h4, h5⟩ := createConfigR_eq b fm args ms
  rw [hdv] at h1; cases h1
  rw [h] at h2
  simp only [Outcome.ok.injEq, Prod.mk.injEq] at h2
  obtain ⟨rfl, rfl⟩ := h2
  have hw := h5 hn
  have hmem : ∀ x ∈ files, x.1 ∈ args.layers.zip ms := by
    intro x hx
    have : x.1 ∈ files.map Prod.fst := List.mem_map_of_mem hx
    rw [h3] at this
    exact List.mem_of_mem_filter this
  refine ⟨?_, ?_, ?_⟩
  · have e1 : (writes.map Wrote.layer).Sublist (files.map fun x => x.1.1.name) := by
      rw [hw]
      clear hw h3 h4 h5 h hmem
      induction files with
      | nil => simp
      | cons x files ih =>
        rw [List.filterMap_cons]
        cases ho : issued b fm dv x with
        | none => exact ih.cons _
        | some o =>
          obtain ⟨-, -, cd, -, rfl⟩ := issued_some ho
          exact ih.cons_cons _
    have e2 : (files.map fun x => x.1.1.name) = (files.map Prod.fst).map fun y => y.1.name := by rw [List.map_map]; rfl
    have e3 : ((files.map Prod.fst).map fun y => y.1.name).Sublist ((args.layers.zip ms).map fun y => y.1.name) := by
      rw [h3]; exact List.filter_sublist.map _
    have e4 : ((args.layers.zip ms).map fun y => y.1.name) = ((args.layers.zip ms).map Prod.fst).map LayerSpec.name := by
      rw [List.map_map]; rfl
    rw [e2] at e1
    refine e1.trans (e3.trans ?_)
    rw [e4]
    exact (fst_zip_sublist _ _).map _
  · intro o ho
    rw [hw] at ho
    obtain ⟨x, hx, ho⟩ := List.mem_filterMap.1 ho
    obtain ⟨g1, g2, cd, g3, rfl⟩ := issued_some ho
    exact ⟨x.1.1, x.1.2, x.2, cd, hmem x hx, h4 x hx, g1, g2, g3, rfl, rfl, rfl, rfl, rfl⟩
  · intro l m hlm hi hne hall
    have hin : (l, m) ∈ files.map Prod.fst := by
      rw [h3]; exact List.mem_filter.2 ⟨hlm, by simpa using hne⟩
    obtain ⟨x, hx, hx1⟩ := List.mem_map.1 hin
    obtain ⟨y, p⟩ := x
    cases hx1
    have hp : p ∈ layerCandidates b m.dirs args.fileName l := by
      rcases h4 _ hx with ⟨i, hi', -⟩ | ⟨hh, -⟩
      · exact List.mem_of_getElem? hi'
      · exact List.mem_of_mem_head? hh
    obtain ⟨k1, k2⟩ := hall p hp
    have : ∃ e, (RegCall.file l.name p).offer b fm = some e := by
      rcases k2 with ⟨a1, a2⟩ | ⟨a1, a2⟩
      · refine ⟨(l.name, .newFile (textHandler fm.toml) p), ?_⟩
        simp only [RegCall.offer]; rw [if_pos ⟨a2, a1⟩]; rfl
      · refine ⟨(l.name, .newFile (textHandler fm.json) p), ?_⟩
        simp only [RegCall.offer]
        rw [if_neg (by rw [a1]; intro hc; exact absurd hc.2 (by decide)), if_pos ⟨a2, a1⟩]; rfl
    obtain ⟨e, he⟩ := this
    refine ⟨⟨l.name, e.2, m.write, dv, e.2.writeValue m.write dv⟩, ?_, rfl⟩
    rw [hw]
    refine List.mem_filterMap.2 ⟨((l, m), p), hx, ?_⟩
    unfold issued
    rw [if_pos ⟨hi, k1⟩, he]; rfl

/-- **C80.** All that `create_config!` ever changes (layers with distinct names, none called `default`): each of its writes leaves
everything but one place of the disk as it was, and this place belongs to a path that was missing when it was checked. -/
theorem C80_damage (b : Build) (fm : Formats) (args : MacroArgs) (ms : List LayerMoments)
    (hn : ("default" :: args.layers.map LayerSpec.name).Nodup) (c : Config) (writes : List Wrote)
    (h : createConfigR b fm args ms = .ok (c, writes)) (o : Wrote) (ho : o ∈ writes) :
    ∃ l m p, (l, m) ∈ args.layers.zip ms ∧ l.init = some true ∧ m.check.pathExists p = false ∧ o.at' = m.write ∧
      o.result.2 = { m.write with disk := o.result.2.disk } ∧ ∀ s, s ≠ m.write.locate p → o.result.2.disk s = m.write.disk s := by
  obtain ⟨dv, hdv, -⟩ := C19_value_map args.default
  obtain ⟨l, m, p, cd, g1, -, g2, g3, -, -, -, g4, -, g5⟩ := (C80_writes b fm args ms hn c writes h dv hdv).2.1 o ho
  obtain ⟨k, -⟩ := C57_write cd m.write p dv o.result.1 o.result.2 (by rw [show (Layer.newFile (textHandler cd) p) = .file (textHandler cd) p from rfl, ← g5])
  exact ⟨l, m, p, g1, g2, g3, g4, k.1, k.2⟩

/-- With nobody else around, the search is the one of `createConfig`. -/
theorem layerFinderR_still (b : Build) (w : World) (name : String) (dirs : List OSDirectory) :
    layerFinderR b (still w) name dirs = layerFinder b w name dirs := by
  unfold layerFinderR layerFinder
  simp only [still]
  rw [macroFinder_eq]
  generalize hf : (⟨dirs.filterMap (OSDirectory.toPathBuf w), name, enabled b⟩ : FileFinder) = f
  by_cases h1 : f.folders = []
  · simp [findFirstR, findFirst, validate, h1]
  · by_cases h2 : f.extensions = []
    · simp [findFirstR, findFirst, validate, h1, h2]
    · exact (C70_undisturbed b (fun _ => w) w f true ⟨h1, h2, by rw [← hf]; exact enabled_noSep b⟩ fun _ _ _ => rfl).1

theorem initLayerR_still (w : World) (c : Config) (added : Bool) (p : OsStr) (l : LayerSpec) (dv : Value) :
    (initLayerR (still w) c added p l dv = [] ∧ initLayer w c added p l dv = w) ∨
    ∃ o : Wrote, initLayerR (still w) c added p l dv = [o] ∧ o.at' = w ∧ initLayer w c added p l dv = o.result.2 := by
  unfold initLayerR initLayer
  cases l.init with
  | none => exact Or.inl ⟨rfl, rfl⟩
  | some flag =>
    dsimp only []
    have h2 : ((added && !(still w).check.pathExists p && flag) = true) = ((added && !w.pathExists p && flag) = true) := rfl
    by_cases hc : (added && !w.pathExists p && flag) = true
    · rw [if_pos hc, if_pos (h2 ▸ hc)]
      cases c.getLayer l.name with
      | none => exact Or.inl ⟨rfl, rfl⟩
      | some layer => exact Or.inr ⟨⟨l.name, layer, w, dv, layer.writeValue w dv⟩, rfl, rfl, rfl⟩
    · rw [if_neg hc, if_neg (h2 ▸ hc)]; exact Or.inl ⟨rfl, rfl⟩

theorem macroLayersR_alone (b : Build) (fm : Formats) (name : String) (dv : Value) (ls : List LayerSpec) :
    ∀ (c : Config) (w : World) (os' : List Wrote), ∃ (ms : List LayerMoments) (new : List Wrote) (c' : Config) (w' : World),
      Alone w ms new w' ∧ ms.length = ls.length ∧
      macroLayers b fm name dv (c, w) ls = .ok (c', w') ∧ macroLayersR b fm name dv (c, os') (ls.zip ms) = .ok (c', os' ++ new) := by
  induction ls with
  | nil => intro c w os'; exact ⟨[], [], c, w, .done w, rfl, rfl, by simp [macroLayersR]⟩
  | cons l ls ih =>
    intro c w os'
    cases hf : layerFinder b w name l.dirs with
    | panic => exact absurd hf (by rcases layerFinder_spec b w name l with ⟨r, h, -⟩ | ⟨e, h, -⟩ <;> rw [h] <;> intro h' <;> cases h')
    | err e =>
      obtain ⟨ms, new, c', w', h1, h2, h3, h4⟩ := ih c w os'
      refine ⟨still w :: ms, new, c', w', .idle h1, by simp [h2], ?_, ?_⟩
      · simp only [macroLayers, macroLayer, hf, Outcome.bind_ok, h3]
      · simp only [List.zip_cons_cons, macroLayersR, macroLayerR, layerFinderR_still, hf, Outcome.bind_ok, h4]
    | ok r =>
      generalize ha : c.addFileLayer b fm l.name r.path = rc
      obtain ⟨res, c1⟩ := rc
      obtain ⟨added, hadd⟩ : ∃ added, (match res with | .ok () => true | .error _ => false) = added := ⟨_, rfl⟩
      have hl : macroLayer b fm name dv (c, w) l = .ok (c1, initLayer w c1 added r.path l dv) := by
        unfold macroLayer; simp only [hf, ha]; rw [← hadd]; cases res <;> rfl
      have hr : ∀ o, macroLayerR b fm name dv (c, o) l (still w) = .ok (c1, o ++ initLayerR (still w) c1 added r.path l dv) := by
        intro o; unfold macroLayerR; simp only [layerFinderR_still, hf, ha]; rw [← hadd]; cases res <;> rfl
      rcases initLayerR_still w c1 added r.path l dv with ⟨g1, g2⟩ | ⟨o, g1, g2, g3⟩
      · obtain ⟨ms, new, c', w', h1, h2, h3, h4⟩ := ih c1 w os'
        refine ⟨still w :: ms, new, c', w', .idle h1, by simp [h2], ?_, ?_⟩
        · simp only [macroLayers, hl, Outcome.bind_ok, g2, h3]
        · simp only [List.zip_cons_cons, macroLayersR, hr, Outcome.bind_ok, g1, List.append_nil, h4]
      · obtain ⟨ms, new, c', w', h1, h2, h3, h4⟩ := ih c1 o.result.2 (os' ++ [o])
        refine ⟨still w :: ms, o :: new, c', w', .wrote o g2 h1, by simp [h2], ?_, ?_⟩
        · simp only [macroLayers, hl, Outcome.bind_ok, g3, h3]
        · simp only [List.zip_cons_cons, macroLayersR, hr, Outcome.bind_ok, g1, h4]
          simp

/-- **C80.** Alone in the world, the macro does what C60-C62 say: `createConfig` from `w` is the run in which nothing happens but the
macro's own writes. -/
theorem C80_alone (b : Build) (fm : Formats) (w : World) (args : MacroArgs) :
    ∃ (ms : List LayerMoments) (writes : List Wrote) (c : Config) (w' : World),
      Alone w ms writes w' ∧ ms.length = args.layers.length ∧
      createConfig b fm w args = .ok (c, w') ∧ createConfigR b fm args ms = .ok (c, writes) := by
  obtain ⟨dv, h, -⟩ := C19_value_map args.default
  obtain ⟨ms, new, c, w', h1, h2, h3, h4⟩ := macroLayersR_alone b fm args.fileName dv args.layers
    (Config.new.addMemoryLayer "default" dv) w []
  unfold createConfig createConfigR
  rw [h]
  simp only [h3, Outcome.bind_ok]
  cases args.env with
  | none => exact ⟨ms, new, _, w', h1, h2, rfl, by simp [h4]⟩
  | some pre => exact ⟨ms, new, _, w', h1, h2, rfl, by simp [h4]⟩

/-- A concrete run among others: nothing is there when the macro looks; before it writes, another process has put its own file at the
place. The macro writes the defaults over it. -/
example : ∃ m c o, createConfigR exB1 exFormats { exArgs with layers := [⟨"two", [.path "/b"], some true⟩] } [m] = .ok (c, [o]) ∧
    m.check.pathExists (os "/b/f.toml") = false ∧ m.write.disk 2 = .file (utf8 "theirs") none none ∧
    o.result.2.disk 2 = .file (utf8 "dflt") none none :=
  ⟨⟨exMacroWorld, fun _ => exMacroWorld, exMacroWorld, exMacroWorld.put 2 (.file (utf8 "theirs") none none)⟩, _, _, rfl, rfl, rfl, rfl⟩

example : ("default" :: exArgs.layers.map LayerSpec.name).Nodup := by decide

/-- **C80** at work on this run: the one write is the one described, and it touched only its file. -/
example : ∃ (m : LayerMoments) (c : Config) (writes : List Wrote),
    createConfigR exB1 exFormats { exArgs with layers := [⟨"two", [.path "/b"], some true⟩] } [m] = .ok (c, writes) ∧
    (∃ o ∈ writes, o.layer = "two") ∧
    (∀ o ∈ writes, ∃ p, m.check.pathExists p = false ∧ ∀ s, s ≠ m.write.locate p → o.result.2.disk s = m.write.disk s) := by
  have hn : ("default" :: ({ exArgs with layers := [⟨"two", [.path "/b"], some true⟩] } : MacroArgs).layers.map LayerSpec.name).Nodup := by
    decide
  obtain ⟨c, writes, h⟩ : ∃ c writes, createConfigR exB1 exFormats { exArgs with layers := [⟨"two", [.path "/b"], some true⟩] }
      [⟨exMacroWorld, fun _ => exMacroWorld, exMacroWorld, exMacroWorld.put 2 (.file (utf8 "theirs") none none)⟩] = .ok (c, writes) :=
    ⟨_, _, rfl⟩
  refine ⟨_, c, writes, h, ?_, ?_⟩
  · exact (C80_writes exB1 exFormats _ _ hn c writes h _ rfl).2.2 ⟨"two", [.path "/b"], some true⟩
      ⟨exMacroWorld, fun _ => exMacroWorld, exMacroWorld, exMacroWorld.put 2 (.file (utf8 "theirs") none none)⟩ (by simp) rfl
      (by decide) (by decide)
  · intro o ho
    obtain ⟨l, m, p, h1, -, h3, -, -, h5⟩ := C80_damage exB1 exFormats _ _ hn c writes h o ho
    simp only [List.zip_cons_cons, List.zip_nil_right, List.mem_singleton, Prod.mk.injEq] at h1
    obtain ⟨-, rfl⟩ := h1
    exact ⟨p, h3, h5⟩

end Verif.Props
