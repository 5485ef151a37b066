import Verif.Spec.Contained
import Verif.Props.Macro
/-!
# C123: everything stays inside the given directories
-/
namespace Verif.Props
open Spec FileFinder

/-! ## Candidates -/

theorem candidate_inside {folder : OsStr} {name ext : String} (hn : PlainName name) (he : ext ≠ "") (hs : '/' ∉ ext.toList) :
    DirectlyIn folder (candidate folder name ext) := by
  have hl := nameLike_os hn
  have hne : os ext ≠ [] := fun e => he (os_inj e)
  have h1 := stem_ne hl.ne
  have h2 := stem_noSep hl.noSep
  have hsep : sep ∉ os ext := by rw [mem_os_sep]; exact hs
  rw [candidate, replaceExtension, splitFileName_join hn]
  simp only [if_neg hne]
  have l1 := List.length_pos_iff.2 h1
  have l2 := List.length_pos_iff.2 hne
  refine ⟨(splitDot (os name)).1 ++ dot :: os ext, ⟨by simp, ?_, ?_, ?_⟩, ?_⟩
  · simp only [List.mem_append, List.mem_cons, not_or]
    exact ⟨h2, by decide, hsep⟩
  · intro h
    have := congrArg List.length h
    simp only [List.length_append, List.length_cons, show (os ".").length = 1 from rfl] at this
    omega
  · intro h
    have := congrArg List.length h
    simp only [List.length_append, List.length_cons, show (os "..").length = 2 from rfl] at this
    omega
  · unfold joinDir
    by_cases hf : folder = []
    · left; subst hf; exact ⟨rfl, by simp⟩
    · by_cases hg : folder.getLast? = some sep
      · right; left; exact ⟨hg, by simp [hg]⟩
      · right; right
        refine ⟨hf, hg, ?_⟩
        rw [if_neg (by simp [hf, hg])]
        simp [os, sep]

/-- **C123.** With a plain file name and extensions that are not empty, every search returns only files directly in one of the finder's folders. -/
theorem C123_search (b : Build) (w : World) (f : FileFinder) (hf : Ready f) (hn : PlainName f.fileName) (he : ∀ e ∈ f.extensions, e ≠ "")
    (r : FindResult) (h : Returned b w f r) : ∃ folder ∈ f.folders, DirectlyIn folder r.path := by
  obtain ⟨c, hc, i, hr⟩ := returned_reports hf h
  unfold candidates at hc
  obtain ⟨folder, hfo, hc⟩ := List.mem_flatMap.1 hc
  obtain ⟨e, hee, rfl⟩ := List.mem_map.1 hc
  exact ⟨folder, hfo, by rw [hr.1]; exact candidate_inside hn (he e hee) (hf.noSep e hee)⟩

theorem firstFlat_congr {b : Build} {w u : World} {am : Bool} (cs : List (OsStr × String)) (h : ∀ c ∈ cs, w.pathExists c.1 = u.pathExists c.1) :
    ∀ first, firstFlat b w am first cs = firstFlat b u am first cs := by
  induction cs with
  | nil => intro; rfl
  | cons c cs ih =>
    intro first
    have e := h c (by simp)
    have er : res b w c = res b u c := by simp only [res, FindResult.new, e]
    simp only [firstFlat, e, er, ih (fun x hx => h x (by simp [hx]))]

theorem lastFlat_congr {b : Build} {w u : World} {am : Bool} (cs : List (OsStr × String)) (h : ∀ c ∈ cs, w.pathExists c.1 = u.pathExists c.1) :
    ∀ st, lastFlat b w am st cs = lastFlat b u am st cs := by
  induction cs with
  | nil => intro; rfl
  | cons c cs ih =>
    intro st
    have e := h c (by simp)
    have er : res b w c = res b u c := by simp only [res, FindResult.new, e]
    simp only [lastFlat, e, er, ih (fun x hx => h x (by simp [hx]))]

theorem numberFlat_congr {b : Build} {w u : World} (cs : List (OsStr × String)) (h : ∀ c ∈ cs, w.pathExists c.1 = u.pathExists c.1) :
    ∀ st, numberFlat b w st cs = numberFlat b u st cs := by
  induction cs with
  | nil => intro; rfl
  | cons c cs ih =>
    intro st
    have e := h c (by simp)
    have er : res b w c = res b u c := by simp only [res, FindResult.new, e]
    simp only [numberFlat, er, ih (fun x hx => h x (by simp [hx]))]

/-- **C123.** What lies elsewhere has no influence on the searches: if the same paths directly in the folders exist in two worlds, all four
searches answer the same in both. -/
theorem C123_search_blind (b : Build) (w u : World) (f : FileFinder) (hf : Ready f) (hn : PlainName f.fileName)
    (he : ∀ e ∈ f.extensions, e ≠ "")
    (hsame : ∀ folder ∈ f.folders, ∀ p, DirectlyIn folder p → w.pathExists p = u.pathExists p) (am : Bool) :
    findFirst b w f am = findFirst b u f am ∧ findLast b w f am = findLast b u f am ∧ findAll b w f am = findAll b u f am ∧
      findAllOrFirst b w f = findAllOrFirst b u f := by
  have hc : ∀ c ∈ candidates f, w.pathExists c.1 = u.pathExists c.1 := by
    intro c hc
    unfold candidates at hc
    obtain ⟨folder, hfo, hc⟩ := List.mem_flatMap.1 hc
    obtain ⟨e, hee, rfl⟩ := List.mem_map.1 hc
    exact hsame folder hfo _ (candidate_inside hn (he e hee) (hf.noSep e hee))
  have hall : ∀ am, findAll b w f am = findAll b u f am := by
    intro am
    have hfil : (candidates f).filter (hit w am) = (candidates f).filter (hit u am) :=
      List.filter_congr fun c h => by simp only [hit, hc c h]
    rw [findAll_eq b w f am hf, findAll_eq b u f am hf, hfil,
      numberFlat_congr _ (fun c h => hc c (List.mem_filter.1 h).1)]
  refine ⟨?_, ?_, hall am, ?_⟩
  · rw [findFirst_eq b w f am hf, findFirst_eq b u f am hf, firstFlat_congr _ hc]
  · rw [findLast_eq b w f am hf, findLast_eq b u f am hf, lastFlat_congr _ hc]
  · rcases some_or_none w f with hx | hx
    · rw [(C48_find_all_or_first b w f hf).1 hx, hall,
        (C48_find_all_or_first b u f hf).1 (hx.imp fun c h => ⟨h.1, by rw [← hc c h.1]; exact h.2⟩)]
    · obtain ⟨c, r, h1, h2, h3⟩ := (C48_find_all_or_first b w f hf).2.1 hx
      obtain ⟨c', r', h1', h2', h3'⟩ := (C48_find_all_or_first b u f hf).2.1 fun c h => by rw [← hc c h]; exact hx c h
      rw [h1] at h1'; cases h1'
      rw [h2, h2']
      obtain ⟨a1, a2, a3, a4⟩ := h3
      obtain ⟨b1, b2, b3, b4⟩ := h3'
      have : r = r' := by
        cases r; cases r'
        simp only at a1 a2 a3 a4 b1 b2 b3 b4
        subst a1 a3 a4 b1 b3 b4 a2 b2
        simp [hc c (List.mem_of_getElem? h1)]
      rw [this]

/-! ## `create_config!` -/

theorem inside_of_candidate {b : Build} {w : World} {args : MacroArgs} (hn : PlainName args.fileName) {l : LayerSpec} (hl : l ∈ args.layers)
    {p : OsStr} (hp : p ∈ layerCandidates b w args.fileName l) : Inside w args p := by
  unfold layerCandidates at hp
  obtain ⟨folder, hfo, hp⟩ := List.mem_flatMap.1 hp
  obtain ⟨d, hd, hf⟩ := List.mem_filterMap.1 hfo
  obtain ⟨e, hee, rfl⟩ := List.mem_map.1 hp
  refine ⟨l, hl, d, hd, folder, hf, candidate_inside hn ?_ (enabled_noSep b e hee)⟩
  unfold enabled at hee
  rintro rfl
  cases hb : b.toml <;> cases hj : b.json <;> simp [hb, hj] at hee

theorem inside_same {w u : World} {args : MacroArgs} (h1 : u.baseDirs = w.baseDirs) (h2 : u.cwd = w.cwd) {p : OsStr} :
    Inside u args p ↔ Inside w args p := by
  have : ∀ d : OSDirectory, d.toPathBuf u = d.toPathBuf w := fun d => by unfold OSDirectory.toPathBuf; rw [h1, h2]
  simp only [Inside, this]

theorem SameInside.refl (args : MacroArgs) (w : World) : SameInside args w w := ⟨rfl, rfl, rfl, fun _ _ => rfl, fun _ _ => rfl⟩

theorem ChangedInside.refl (args : MacroArgs) (w : World) : ChangedInside args w w := ⟨rfl, fun _ _ => rfl⟩

theorem placeInside_same {w u : World} {args : MacroArgs} (h : SameEnv w u) {s : Nat} : PlaceInside u args s ↔ PlaceInside w args s := by
  unfold PlaceInside
  simp only [inside_same h.baseDirs h.cwd, h.locate]

theorem ChangedInside.trans {args : MacroArgs} {w w' w'' : World} (h : ChangedInside args w w') (h' : ChangedInside args w' w'') :
    ChangedInside args w w'' :=
  ⟨SameEnv.trans h.1 h'.1, fun s hs => (h'.2 s (fun hp => hs ((placeInside_same h.1).1 hp))).trans (h.2 s hs)⟩

theorem sameInside_exists {args : MacroArgs} {w u : World} (h : SameInside args w u) {p : OsStr} (hp : Inside w args p) :
    u.pathExists p = w.pathExists p := by
  unfold World.pathExists; rw [h.locate, h.disk p hp]

theorem sameInside_put {args : MacroArgs} {w u : World} (h : SameInside args w u) (s : Nat) (n : Node) :
    SameInside args (w.put s n) (u.put s n) := by
  refine ⟨h.locate, h.baseDirs, h.cwd, fun p hp => ?_, fun p hp => ?_⟩
  · have hp : Inside w args p := hp
    have := h.disk p hp
    simp only [World.put]
    split
    · rfl
    · exact this
  · exact h.room p hp

theorem sameInside_append {args : MacroArgs} {w u : World} (h : SameInside args w u) {p : OsStr} (hp : Inside w args p) (bs : List UInt8) :
    SameInside args (w.appendBytes (w.locate p) bs) (u.appendBytes (w.locate p) bs) := by
  unfold World.appendBytes
  rw [h.disk p hp]
  split
  · exact sameInside_put h _ _
  · exact h

theorem fsWrite_inside {args : MacroArgs} {w u : World} (h : SameInside args w u) {p : OsStr} (hp : Inside w args p) (text : String) :
    (w.fsWrite p text).1 = (u.fsWrite p text).1 ∧ SameInside args (w.fsWrite p text).2 (u.fsWrite p text).2 := by
  have hopen : (∃ e, w.openTrunc p = .error e ∧ u.openTrunc p = .error e) ∨
      ∃ w1 u1, w.openTrunc p = .ok w1 ∧ u.openTrunc p = .ok u1 ∧ SameInside args w1 u1 ∧ w1.locate = w.locate ∧ (Inside w1 args p) := by
    unfold World.openTrunc
    rw [h.locate, h.disk p hp]
    split
    · exact Or.inl ⟨_, rfl, rfl⟩
    · exact Or.inr ⟨_, _, rfl, rfl, sameInside_put h _ _, rfl, hp⟩
    · exact Or.inl ⟨_, rfl, rfl⟩
    · exact Or.inl ⟨_, rfl, rfl⟩
    · exact Or.inr ⟨_, _, rfl, rfl, sameInside_put h _ _, rfl, hp⟩
  unfold World.fsWrite
  rcases hopen with ⟨e, h1, h2⟩ | ⟨w1, u1, h1, h2, h3, h4, h5⟩
  · rw [h1, h2]; exact ⟨rfl, h⟩
  · rw [h1, h2, h.locate, h.room p hp]
    dsimp only
    have happ : ∀ bs, SameInside args (w1.appendBytes (w.locate p) bs) (u1.appendBytes (w.locate p) bs) := fun bs => by
      have := sameInside_append h3 h5 bs
      rwa [h4] at this
    split
    · split
      · exact ⟨rfl, happ _⟩
      · exact ⟨rfl, happ _⟩
    · exact ⟨rfl, happ _⟩

/-- Writing and reading through a layer kept inside, in two worlds that are the same inside. -/
theorem layer_inside {args : MacroArgs} {w u : World} {l : Layer} (hl : KeptInside w args l) (h : SameInside args w u) (v : Value) :
    (l.writeValue w v).1 = (l.writeValue u v).1 ∧ SameInside args (l.writeValue w v).2 (l.writeValue u v).2 := by
  cases hl with
  | memory x => exact ⟨rfl, h⟩
  | environment pre => exact ⟨rfl, h⟩
  | file cd p hp =>
    simp only [Layer.writeValue, textHandler]
    cases cd.print v.toData with
    | error m => exact ⟨rfl, h⟩
    | ok text =>
      obtain ⟨h1, h2⟩ := fsWrite_inside h hp text
      dsimp only
      generalize w.fsWrite p text = r at h1 h2
      generalize u.fsWrite p text = r' at h1 h2
      obtain ⟨a, w'⟩ := r
      obtain ⟨a', u'⟩ := r'
      cases h1
      cases a <;> exact ⟨rfl, h2⟩

theorem write_changedInside {args : MacroArgs} {w : World} {l : Layer} (hl : KeptInside w args l) (v : Value) :
    ChangedInside args w (l.writeValue w v).2 := by
  cases hl with
  | memory x => exact ChangedInside.refl args w
  | environment pre => exact ChangedInside.refl args w
  | file cd p hp =>
    generalize hr : (Layer.file (textHandler cd) p).writeValue w v = r
    obtain ⟨res, w'⟩ := r
    obtain ⟨⟨h0, h1⟩, -⟩ := C57_write cd w p v res w' hr
    exact ⟨h0, fun s hs => h1 s fun e => hs ⟨p, hp, e.symm⟩⟩

theorem keptInside_same {args : MacroArgs} {w u : World} (h1 : u.baseDirs = w.baseDirs) (h2 : u.cwd = w.cwd) {l : Layer}
    (h : KeptInside w args l) : KeptInside u args l := by
  cases h with
  | memory v => exact .memory v
  | environment pre => exact .environment pre
  | file cd p hp => exact .file cd p ((inside_same h1 h2).2 hp)

/-- The calls register layers kept inside. -/
def CallsInside (w : World) (args : MacroArgs) (calls : List RegCall) : Prop :=
  ∀ c ∈ calls, match c with
    | .layer _ _ => False
    | .file _ p => Inside w args p
    | .environment _ pre => args.env = some pre
    | .memory _ _ => True

theorem kept_of_calls {b : Build} {fm : Formats} {w : World} {args : MacroArgs} {calls : List RegCall} (h : CallsInside w args calls)
    {n : String} {l : Layer} (hg : (register b fm calls).getLayer n = some l) : KeptInside w args l := by
  rw [(C11_first_wins b fm calls n).1, Option.map_eq_some_iff] at hg
  obtain ⟨e, he, rfl⟩ := hg
  obtain ⟨c, hc, ho⟩ := List.mem_filterMap.1 (List.mem_of_find?_eq_some he)
  have := h c hc
  cases c with
  | layer => exact this.elim
  | memory => cases ho; exact .memory _
  | environment => cases ho; exact .environment _
  | file n p =>
    obtain ⟨cd, rfl, -⟩ := offer_file ho
    exact .file cd p this

theorem initLayer_inside {args : MacroArgs} {w u : World} {c : Config} (hc : ∀ n l, c.getLayer n = some l → KeptInside w args l)
    (h : SameInside args w u) (added : Bool) {p : OsStr} (hp : Inside w args p) (l : LayerSpec) (dv : Value) :
    SameInside args (initLayer w c added p l dv) (initLayer u c added p l dv) ∧ ChangedInside args w (initLayer w c added p l dv) := by
  unfold initLayer
  cases l.init with
  | none => exact ⟨h, ChangedInside.refl args w⟩
  | some flag =>
    dsimp only
    rw [sameInside_exists h hp]
    split
    · cases hg : c.getLayer l.name with
      | none => exact ⟨h, ChangedInside.refl args w⟩
      | some layer => exact ⟨(layer_inside (hc _ _ hg) h dv).2, write_changedInside (hc _ _ hg) dv⟩
    · exact ⟨h, ChangedInside.refl args w⟩

theorem foldl_inside {b : Build} {fm : Formats} {args : MacroArgs} (hn : PlainName args.fileName) (dv : Value) (ls : List LayerSpec) :
    (∀ l ∈ ls, l ∈ args.layers) → ∀ (calls : List RegCall) (w u : World), CallsInside w args calls → SameInside args w u →
    ∃ calls' w' u', ls.foldl (mStep b fm args.fileName dv) (register b fm calls, w) = (register b fm calls', w') ∧
      ls.foldl (mStep b fm args.fileName dv) (register b fm calls, u) = (register b fm calls', u') ∧
      CallsInside w args calls' ∧ SameInside args w' u' ∧ ChangedInside args w w' := by
  induction ls with
  | nil => intro _ calls w u hc h; exact ⟨calls, w, u, rfl, rfl, hc, h, ChangedInside.refl args w⟩
  | cons l ls ih =>
    intro hls calls w u hc h
    rw [List.foldl_cons, List.foldl_cons]
    have hcand : layerCandidates b u args.fileName l = layerCandidates b w args.fileName l := by
      have : ∀ d : OSDirectory, d.toPathBuf u = d.toPathBuf w := fun d => by unfold OSDirectory.toPathBuf; rw [h.baseDirs, h.cwd]
      unfold layerCandidates
      rw [show OSDirectory.toPathBuf u = OSDirectory.toPathBuf w from funext this]
    have hin : ∀ p ∈ layerCandidates b w args.fileName l, Inside w args p := fun p hp => inside_of_candidate hn (hls l (by simp)) hp
    have hch : chosen u (layerCandidates b w args.fileName l) = chosen w (layerCandidates b w args.fileName l) := by
      unfold chosen
      have : ∀ cs : List OsStr, (∀ p ∈ cs, Inside w args p) → cs.find? (fun p => u.pathExists p) = cs.find? fun p => w.pathExists p := by
        intro cs
        induction cs with
        | nil => intro _; rfl
        | cons q cs ih2 =>
          intro hq
          rw [List.find?_cons, List.find?_cons, sameInside_exists h (hq q (by simp)), ih2 fun p hp => hq p (by simp [hp])]
      rw [this _ hin]
    have hls' : ∀ x ∈ ls, x ∈ args.layers := fun x hx => hls x (by simp [hx])
    unfold mStep
    dsimp only
    rw [hcand, hch]
    cases hp : chosen w (layerCandidates b w args.fileName l) with
    | none => exact ih hls' calls w u hc h
    | some p =>
      dsimp only
      have hip := hin p (chosen_mem hp)
      rw [register_append]
      have hc' : CallsInside w args (calls ++ [.file l.name p]) := by
        intro c hx
        rcases List.mem_append.1 hx with hx | hx
        · exact hc c hx
        · rw [List.mem_singleton] at hx; subst hx; exact hip
      obtain ⟨g1, g2⟩ := initLayer_inside (fun n l hg => kept_of_calls (b := b) (fm := fm) hc' hg) h
        ((RegCall.file l.name p).offer b fm).isSome hip l dv
      have hsame : SameEnv w _ := g2.1
      obtain ⟨calls', w', u', e1, e2, e3, e4, e5⟩ := ih hls' (calls ++ [.file l.name p]) _ _
        (fun c hx => by
          have := hc' c hx
          cases c with
          | file n q => exact (inside_same hsame.baseDirs hsame.cwd).2 this
          | _ => exact this) g1
      refine ⟨calls', w', u', e1, e2, ?_, e4, ChangedInside.trans g2 e5⟩
      intro c hx
      have := e3 c hx
      cases c with
      | file n q => exact (inside_same hsame.baseDirs hsame.cwd).1 this
      | _ => exact this

theorem createConfig_inside {b : Build} {fm : Formats} {args : MacroArgs} (hn : PlainName args.fileName) {w u : World}
    (h : SameInside args w u) :
    ∃ calls w' u', createConfig b fm w args = .ok (register b fm calls, w') ∧ createConfig b fm u args = .ok (register b fm calls, u') ∧
      CallsInside w args calls ∧ SameInside args w' u' ∧ ChangedInside args w w' := by
  obtain ⟨dv, h1, h2⟩ := createConfig_eq b fm w args
  obtain ⟨dv', h1', h2'⟩ := createConfig_eq b fm u args
  rw [h1] at h1'; cases h1'
  obtain ⟨calls, w', u', e1, e2, e3, e4, e5⟩ := foldl_inside (b := b) (fm := fm) hn dv args.layers (fun _ hl => hl) [.memory "default" dv] w u
    (by intro c hc; simp at hc; subst hc; trivial) h
  rw [e1] at h2
  rw [e2] at h2'
  have hreg : (args.env.map fun pre => RegCall.environment "environment" pre).toList.foldl (RegCall.apply b fm) (register b fm calls) =
      register b fm (calls ++ (args.env.map fun pre => RegCall.environment "environment" pre).toList) := by
    unfold register; rw [← List.foldl_append]
  dsimp only at h2 h2'
  rw [hreg] at h2 h2'
  refine ⟨_, w', u', h2, h2', ?_, e4, e5⟩
  intro c hc
  rcases List.mem_append.1 hc with hc | hc
  · exact e3 c hc
  · cases he : args.env with
    | none => rw [he] at hc; cases hc
    | some pre => rw [he] at hc; simp at hc; subst hc; rfl

theorem saves_inside {args : MacroArgs} {c : Config} (xs : List (String × Value)) :
    ∀ w u : World, (∀ n l, c.getLayer n = some l → KeptInside w args l) → SameInside args w u →
      SameInside args (saves c w xs) (saves c u xs) ∧ ChangedInside args w (saves c w xs) := by
  induction xs with
  | nil => intro w u _ h; exact ⟨h, ChangedInside.refl args w⟩
  | cons x xs ih =>
    intro w u hc h
    simp only [saves]
    cases hg : c.getLayer x.1 with
    | none => exact ih w u hc h
    | some l =>
      have h1 := (layer_inside (hc _ _ hg) h x.2).2
      have h2 := write_changedInside (hc _ _ hg) x.2
      have hsame : SameEnv w _ := h2.1
      obtain ⟨g1, g2⟩ := ih _ _ (fun n l' hg' => keptInside_same hsame.baseDirs hsame.cwd (hc n l' hg')) h1
      exact ⟨g1, ChangedInside.trans h2 g2⟩

/-- **C123.** If the file name is plain, `create_config!` and every later save through the layers of its configuration change nothing but files
directly in the directories of the call; and the configuration has no layers but the ones it holds in memory, the environment, and files
directly in those directories. (Nothing is assumed of the layers' names, of `init` and of what is on the disk.) -/
theorem C123_start (b : Build) (fm : Formats) (w : World) (args : MacroArgs) (hn : PlainName args.fileName) (c : Config) (w' : World)
    (h : createConfig b fm w args = .ok (c, w')) :
    (∀ n l, c.getLayer n = some l → KeptInside w args l) ∧ ∀ xs, ChangedInside args w (saves c w' xs) := by
  obtain ⟨calls, w1, u1, e1, -, e3, -, e5⟩ := createConfig_inside (b := b) (fm := fm) hn (SameInside.refl args w)
  rw [h] at e1; cases e1
  have hsame : SameEnv w w' := e5.1
  refine ⟨fun n l hg => kept_of_calls e3 hg, fun xs => ChangedInside.trans e5 ?_⟩
  exact (saves_inside xs w' w' (fun n l hg => keptInside_same hsame.baseDirs hsame.cwd (kept_of_calls e3 hg)) (SameInside.refl args w')).2

/-- **C123.** What lies elsewhere has no influence. In two worlds that hold the same files directly in the directories, `create_config!` makes the
same configuration and leaves the same files there, also after any saves; and if the variables with the prefix are the same, the built value
(or the error) is the same at any time. -/
theorem C123_blind (b : Build) (fm : Formats) (w u : World) (args : MacroArgs) (hn : PlainName args.fileName) (h : SameInside args w u) :
    ∃ c w' u', createConfig b fm w args = .ok (c, w') ∧ createConfig b fm u args = .ok (c, u') ∧
      ∀ xs, SameInside args (saves c w' xs) (saves c u' xs) ∧
        ((∀ pre, args.env = some pre → w.env.filter (Prefixed pre) = u.env.filter (Prefixed pre)) →
          ∀ skip, c.buildValue (saves c w' xs) skip = c.buildValue (saves c u' xs) skip) := by
  obtain ⟨calls, w', u', e1, e2, e3, e4, e5⟩ := createConfig_inside (b := b) (fm := fm) hn h
  have hw : SameEnv w w' := e5.1
  have hu := C123_start b fm u args hn _ u' e2
  refine ⟨_, w', u', e1, e2, fun xs => ?_⟩
  obtain ⟨s1, s2⟩ := saves_inside xs w' u' (fun n l hg => keptInside_same hw.baseDirs hw.cwd (kept_of_calls e3 hg)) e4
  refine ⟨s1, fun henv skip => ?_⟩
  have hs : SameEnv w (saves (register b fm calls) w' xs) := SameEnv.trans hw s2.1
  have hsu : SameEnv u (saves (register b fm calls) u' xs) := (hu.2 xs).1
  refine C13_only_inputs b fm calls _ _ skip (fun c hc => ?_) fun c hc => ?_
  · have := e3 c hc
    cases c with
    | layer => exact this.elim
    | _ => trivial
  · have := e3 c hc
    cases c with
    | layer => exact this.elim
    | memory => trivial
    | environment n pre =>
      show List.filter _ _ = List.filter _ _
      rw [hs.env, hsu.env]; exact henv pre this
    | file n p =>
      have hp : Inside (saves (register b fm calls) w' xs) args p := (inside_same hs.baseDirs hs.cwd).2 this
      have hd : (saves (register b fm calls) u' xs).disk ((saves (register b fm calls) u' xs).locate p) =
          (saves (register b fm calls) w' xs).disk ((saves (register b fm calls) w' xs).locate p) := by
        rw [s1.locate]; exact s1.disk p hp
      exact ⟨(pathExists_congr hd).symm, (readToString_congr hd).symm⟩

/-! ## Names with separators -/

/-- **C123.** A file name `a/s` is looked up as `s` in the folder `a` seen from the given folder: below it, beside it (`..`), or anywhere (an absolute
`a`). -/
theorem C123_subfolder (folder : OsStr) (a s ext : String) (ha : a ≠ "") (hlast : a.toList.getLast? ≠ some '/') (hs : PlainName s) :
    candidate folder (a ++ "/" ++ s) ext = candidate (pathJoin folder (os a)) s ext := by
  have hne : os a ≠ [] := fun e => ha (os_inj e)
  have hl : (os a).getLast? ≠ some sep := by
    intro h
    rw [os, List.getLast?_map, Option.map_eq_some_iff] at h
    obtain ⟨c, h1, h2⟩ := h
    cases h2
    exact hlast h1
  have hh := (nameLike_os hs).head
  have hj : pathJoin folder (os (a ++ "/" ++ s)) = pathJoin (pathJoin folder (os a)) (os s) := by
    have e : os (a ++ "/" ++ s) = os a ++ (sep :: os s) := by rw [os_append, os_append, List.append_assoc]; rfl
    have hhead : (os a ++ (sep :: os s)).head? = (os a).head? := by
      obtain ⟨x, t, e⟩ := List.exists_cons_of_ne_nil hne
      rw [e]; rfl
    have hlast' : ∀ pre : OsStr, (pre ++ os a).getLast? ≠ some sep := fun pre => by
      rw [List.getLast?_append_of_ne_nil _ hne]; exact hl
    rw [e]
    unfold pathJoin
    rw [hhead]
    split
    · rw [if_neg (by simp [hne, hl])]
    · split
      · have := hlast' folder
        rw [if_neg (by rintro (h | h) <;> [exact hne (List.append_eq_nil_iff.1 h).2; exact this h])]; simp
      · have := hlast' (folder ++ [sep])
        rw [List.append_assoc] at this
        rw [if_neg (by rintro (h | h) <;> [simp at h; exact this h])]; simp
  rw [candidate, candidate, hj]

/-- A world with directories `/a` and `/b`. -/
def exEscWorld : World :=
  { locate := fun p => if p = os "/b/../x.toml" then 1 else if p = os "/a/x.toml" then 2 else 3,
    disk := fun _ => .absent none, room := fun _ => none, env := [], baseDirs := some ⟨os "/h", os "/h/c", os "/h/p"⟩, cwd := none }
/-- One directory `/b`, and a name that leads out of it. -/
def exEscArgs (name : String) : MacroArgs :=
  { fileName := name, default := [("text", .string "dflt")], env := none, layers := [⟨"one", [.path "/b"], some true⟩] }

/-- **C123.** Without the plain name it is not so: with the only directory `/b` and the name `../x` or `/a/x`, a file is written that is not
directly in `/b`. -/
theorem C123_escapes : ∀ name ∈ ["../x", "/a/x"], ∃ c w', createConfig exB1 exFormats exEscWorld (exEscArgs name) = .ok (c, w') ∧
    ¬ ChangedInside (exEscArgs name) exEscWorld w' := by
  have hout : ∀ name s p, (exEscWorld.locate p = s → p = os "/b/../x.toml" ∨ p = os "/a/x.toml") → exEscWorld.locate p = s →
      ¬ Inside exEscWorld (exEscArgs name) p := by
    rintro name s p hp hs ⟨l, hl, d, hd, folder, hf, n, ⟨h1, h2, -, -⟩, h3⟩
    simp only [exEscArgs, List.mem_singleton] at hl
    subst hl
    simp only [List.mem_singleton] at hd
    subst hd
    cases hf
    rcases h3 with ⟨h, -⟩ | ⟨h, -⟩ | ⟨-, -, h⟩
    · exact absurd h (by decide)
    · exact absurd h (by decide)
    · rcases hp hs with e | e
      · rw [h] at e
        have : n = os "../x.toml" := List.append_cancel_left (as := os "/b" ++ os "/") (e.trans (by decide))
        rw [this] at h2
        exact h2 (by decide)
      · rw [h] at e
        exact absurd (Option.some.inj (congrArg (fun l => l[1]?) e : some (OsChar.chr 'b') = some (OsChar.chr 'a'))) (by decide)
  intro name hname
  simp only [List.mem_cons, List.not_mem_nil, or_false] at hname
  rcases hname with rfl | rfl
  · refine ⟨_, _, rfl, fun h => ?_⟩
    have := h.2 1 (by
      rintro ⟨p, hp, hl⟩
      refine hout _ 1 p (fun h => ?_) hl hp
      simp only [exEscWorld] at h
      split at h
      · left; assumption
      · split at h <;> cases h)
    revert this
    decide
  · refine ⟨_, _, rfl, fun h => ?_⟩
    have := h.2 2 (by
      rintro ⟨p, hp, hl⟩
      refine hout _ 2 p (fun h => ?_) hl hp
      simp only [exEscWorld] at h
      split at h
      · cases h
      · split at h
        · right; assumption
        · cases h)
    revert this
    decide

/-! ## Examples -/

theorem exArgs_plain : PlainName exArgs.fileName := plain_of _ (by decide)

example (r : FindResult) (h : Returned exBuild exWorld exFinder r) : ∃ folder ∈ [os "/a", os "/b"], DirectlyIn folder r.path :=
  C123_search exBuild exWorld exFinder exFinder_ready (plain_of _ (by decide)) (by decide) r h

/-- A world that differs from `exWorld` in a file elsewhere. -/
example : ∃ u : World, (∃ p, u.pathExists p ≠ exWorld.pathExists p) ∧
    findAll exBuild exWorld exFinder true = findAll exBuild u exFinder true := by
  let u : World := { exWorld with locate := fun p => if p = os "/etc/passwd" then 77 else exWorld.locate p,
                                   disk := fun s => if s = 77 then .file [] none none else exWorld.disk s }
  have hu : ∀ p, p ≠ os "/etc/passwd" → exWorld.locate p ≠ 77 → exWorld.pathExists p = u.pathExists p := by
    intro p h1 h2
    simp only [World.pathExists, u, if_neg h1, if_neg h2]
  refine ⟨u, ⟨os "/etc/passwd", by decide⟩, ?_⟩
  refine (C123_search_blind exBuild exWorld u exFinder exFinder_ready (plain_of _ (by decide)) (by decide) (fun folder hf p hp => ?_) true).2.2.1
  refine hu p ?_ ?_
  · rintro rfl
    obtain ⟨n, ⟨-, h2, -⟩, h3⟩ := hp
    have hf : folder = os "/a" ∨ folder = os "/b" := by revert hf; simp [exFinder, FileFinder.withFolder, FileFinder.withToml, FileFinder.withJson, FileFinder.withExtension, FileFinder.new]
    rcases hf with rfl | rfl
    · rcases h3 with ⟨h, -⟩ | ⟨h, -⟩ | ⟨-, -, h⟩
      · exact absurd h (by decide)
      · exact absurd h (by decide)
      · exact absurd (Option.some.inj (congrArg (fun l => l[1]?) h : some (OsChar.chr 'e') = some (OsChar.chr 'a'))) (by decide)
    · rcases h3 with ⟨h, -⟩ | ⟨h, -⟩ | ⟨-, -, h⟩
      · exact absurd h (by decide)
      · exact absurd h (by decide)
      · exact absurd (Option.some.inj (congrArg (fun l => l[1]?) h : some (OsChar.chr 'e') = some (OsChar.chr 'b'))) (by decide)
  · simp only [exWorld]
    repeat' split
    all_goals decide

/-- After the example run, and any saves, only files directly in `/a` and `/b` have changed. -/
example : ∃ c w', createConfig exB1 exFormats exMacroWorld exArgs = .ok (c, w') ∧
    (∀ n l, c.getLayer n = some l → KeptInside exMacroWorld exArgs l) ∧
    ChangedInside exArgs exMacroWorld (saves c w' [("two", .map [("x", .string "y")]), ("nobody", .none), ("one", .string "z")]) :=
  ⟨_, _, rfl, (C123_start exB1 exFormats exMacroWorld exArgs exArgs_plain _ _ rfl).1,
    (C123_start exB1 exFormats exMacroWorld exArgs exArgs_plain _ _ rfl).2 _⟩

/-- The repeated layer name overwrites a file (C61), but one inside. -/
example (c : Config) (w' : World) (h : createConfig exB1 exFormats exMacroWorld exArgsTwice = .ok (c, w')) : ChangedInside exArgsTwice exMacroWorld w' :=
  (C123_start exB1 exFormats exMacroWorld exArgsTwice (plain_of _ (by decide)) c w' h).2 []

/-- Two worlds that differ in files elsewhere and in the environment. -/
example : ∃ u : World, SameInside exArgs exMacroWorld u ∧ u.env ≠ exMacroWorld.env ∧ u.disk 9 ≠ exMacroWorld.disk 9 ∧
    ∀ pre, exArgs.env = some pre → exMacroWorld.env.filter (Prefixed pre) = u.env.filter (Prefixed pre) := by
  refine ⟨{ exMacroWorld with env := [(os "HOME", os "/h"), (os "APP_k", os "v")], disk := fun s => if s = 9 then .other 1 else exMacroWorld.disk s },
    ⟨rfl, rfl, rfl, fun p _ => ?_, fun _ _ => rfl⟩, by decide, by decide, ?_⟩
  · have : exMacroWorld.locate p ≠ 9 := by
      simp only [exMacroWorld]
      repeat' split
      all_goals decide
    simp only [if_neg this]
  · rintro pre h
    cases h
    decide

example : candidate (os "/etc/app") ".." "toml" = os "/etc/app/.." := by decide
example : candidate (os "/etc/app") (".." ++ "/" ++ "x") "toml" = candidate (os "/etc/app/..") "x" "toml" :=
  C123_subfolder (os "/etc/app") ".." "x" "toml" (by decide) (by decide) (plain_of _ (by decide))
example : candidate (os "/etc/app") ("sub" ++ "/" ++ "x") "toml" = os "/etc/app/sub/x.toml" := by decide
example : candidate (os "/etc/app") ("/root" ++ "/" ++ "x") "toml" = candidate (os "/root") "x" "toml" :=
  C123_subfolder (os "/etc/app") "/root" "x" "toml" (by decide) (by decide) (plain_of _ (by decide))

end Verif.Props
