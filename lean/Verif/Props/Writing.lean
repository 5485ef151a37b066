import Verif.Spec.Writing
import Verif.Props.Program
import Verif.Props.Toml
import Verif.Lemmas.Macro
/-!
# Whole programs that write files cannot observe the order of a HashMap either (C96)
-/
namespace Verif.Props
open Spec

/-! ## Alike worlds -/

theorem WorldAlike.refl (b : Build) (fm : Formats) (w : World) : WorldAlike b fm w w := ⟨rfl, fun _ => .same _⟩
theorem alikeEnv {b : Build} {fm : Formats} {w w' : World} (h : WorldAlike b fm w w') : SameEnv w w' := h.1

theorem alike_exists {b : Build} {fm : Formats} {w w' : World} (h : WorldAlike b fm w w') : w.pathExists = w'.pathExists := by
  funext p
  unfold World.pathExists
  rw [(alikeEnv h).locate]
  have := h.2 (w.locate p)
  revert this
  generalize w.disk (w.locate p) = n
  generalize w'.disk (w.locate p) = n'
  intro this
  cases this <;> rfl

theorem answers_refl {x : Except BakuninError Value} (h : ∀ v, x = .ok v → UniqueKeys v) : AnswersAlike x x := by
  cases x with
  | error e => exact .error e
  | ok v => exact .ok (Reordered.refl (h v rfl))

theorem blind_proper {l : UserLayer} (h : ∀ b fm, Blind b fm l) : Proper (.user l) := by
  intro w v hv
  have := (h ⟨true, true, true⟩ ⟨⟨fun _ => .error "", fun _ => .error ""⟩, ⟨fun _ => .error "", fun _ => .error ""⟩⟩).read w w (WorldAlike.refl _ _ w)
  have hv' : l.readValue w = .ok v := hv
  rw [hv'] at this
  cases this with
  | ok h => exact h.2.1

theorem handler_says (cd : Codec) (w : World) (p : OsStr) : (textHandler cd).read w p =
    match w.disk (w.locate p) with
    | .absent _ => .error (.ioError (.refused 2))
    | .other code => .error (.ioError (.refused code))
    | .file _ (some code) _ => .error (.ioError (.refused code))
    | .file bs none _ => fileSays cd bs := by
  simp only [textHandler, World.readToString, fileSays]
  rcases w.disk (w.locate p) with _ | ⟨bs, _ | _, _⟩ | _
  · rfl
  · dsimp only; cases ofUtf8 bs <;> rfl
  · rfl
  · rfl

theorem alike_handler {b : Build} {fm : Formats} {w w' : World} (h : WorldAlike b fm w w') {p : OsStr} {cd : Codec} (hf : FormatOf b fm p cd) :
    AnswersAlike ((textHandler cd).read w p) ((textHandler cd).read w' p) := by
  have hu : ∀ v, (textHandler cd).read w p = .ok v → UniqueKeys v := fun v hv => uniqueKeys_textHandler hv
  rw [handler_says, handler_says, (alikeEnv h).locate]
  rw [handler_says] at hu
  have := h.2 (w.locate p)
  revert this hu
  generalize w.disk (w.locate p) = n
  generalize w'.disk (w.locate p) = n'
  intro hu this
  cases this with
  | same => exact answers_refl hu
  | files bs bs' r wr h =>
    cases r with
    | some code => exact .error _
    | none => exact h p cd rfl hf

theorem alike_read {b : Build} {fm : Formats} {w w' : World} (h : WorldAlike b fm w w') {l l' : Layer} (hl : ReorderedLayer l l')
    (hk : KnownLayer b fm l) : AnswersAlike (l.readValue w) (l'.readValue w') := by
  cases hl with
  | memory hv => exact .ok hv
  | same hp =>
    cases hk with
    | memory v => exact .ok (Reordered.refl (hp w v rfl))
    | environment pre =>
      have : Layer.readValue w' (.environment pre) = Layer.readValue w (.environment pre) := by
        simp only [Layer.readValue, Layer.readEnv, (alikeEnv h).env]
      rw [this]
      exact answers_refl (hp w)
    | file p cd hf =>
      simp only [Layer.readValue]
      rw [← alike_exists h]
      cases w.pathExists p with
      | true => exact alike_handler h hf
      | false => exact .ok (Reordered.refl (C22_unique_keys .none .none trivial trivial "" 0).2.1)
    | user l hb => exact hb.read w w' h

theorem alike_has {b : Build} {fm : Formats} {w w' : World} (h : WorldAlike b fm w w') {l l' : Layer} (hl : ReorderedLayer l l')
    (hk : KnownLayer b fm l) : l.hasValue w = l'.hasValue w' ∧ l.canWrite w = l'.canWrite w' := by
  cases hl with
  | memory hv => exact ⟨rfl, rfl⟩
  | same hp =>
    cases hk with
    | memory v => exact ⟨rfl, rfl⟩
    | environment pre => exact ⟨rfl, rfl⟩
    | file p cd hf => exact ⟨congrFun (alike_exists h) p, rfl⟩
    | user l hb => exact ⟨hb.has w w' h, hb.can w w' h⟩

theorem alike_buildLoop {b : Build} {fm : Formats} {w w' : World} (hw : WorldAlike b fm w w') {c c' : Config} (h : ReorderedConfig c c')
    (hk : ∀ name l, hmGet c.layers name = some l → KnownLayer b fm l) (skip : Bool) (names : List String) :
    ∀ v v' : Value, Reordered v v' → AnswersAlike (c.buildLoop w skip v names) (c'.buildLoop w' skip v' names) := by
  induction names with
  | nil => intro v v' hv; exact .ok hv
  | cons name names ih =>
    intro v v' hv
    simp only [Config.buildLoop]
    have hl := h.2 name
    have hk' := hk name
    revert hl hk'
    cases hmGet c.layers name <;> cases hmGet c'.layers name <;> intro hl hk' <;> cases hl
    · exact ih v v' hv
    · rename_i l l' hl
      have := alike_read hw hl (hk' l rfl)
      revert this
      dsimp only
      generalize l.readValue w = x
      generalize l'.readValue w' = x'
      intro this
      cases this with
      | ok h3 => exact ih _ _ ⟨merge_congr hv.1 h3.1 h3.2.1 h3.2.2, uniqueKeys_merge hv.2.1 h3.2.1, uniqueKeys_merge hv.2.2 h3.2.2⟩
      | error e =>
        cases skip with
        | true => exact ih v v' hv
        | false => exact .error e
      | parse m m' =>
        cases skip with
        | true => exact ih v v' hv
        | false => exact .parse m m'

/-! ## Searches -/

theorem alike_toPathBuf {b : Build} {fm : Formats} {w w' : World} (h : WorldAlike b fm w w') : OSDirectory.toPathBuf w = OSDirectory.toPathBuf w' := by
  funext d; unfold OSDirectory.toPathBuf; rw [(alikeEnv h).baseDirs, (alikeEnv h).cwd]

theorem alike_finder {b : Build} {fm : Formats} {w w' : World} (h : WorldAlike b fm w w') (name : String) (calls : List FinderCall) :
    finder b w name calls = finder b w' name calls := by
  unfold finder FileFinder.withOsDirectory
  rw [alike_toPathBuf h]

theorem alike_new {b : Build} {w w' : World} (h : w.pathExists = w'.pathExists) (p : OsStr) (ext : String) :
    FindResult.new b w p ext = FindResult.new b w' p ext := by
  unfold FindResult.new; rw [h]

theorem alike_findFirst {b : Build} {w w' : World} (h : w.pathExists = w'.pathExists) (f : FileFinder) (am : Bool) :
    f.findFirst b w am = f.findFirst b w' am := by
  have h1 : ∀ base exts first, FileFinder.findFirstExts b w am base first exts = FileFinder.findFirstExts b w' am base first exts := by
    intro base exts
    induction exts with
    | nil => intro first; rfl
    | cons e exts ih => intro first; simp only [FileFinder.findFirstExts, h, alike_new h, ih]
  have h2 : ∀ name exts folders first, FileFinder.findFirstFolders b w am name exts first folders =
      FileFinder.findFirstFolders b w' am name exts first folders := by
    intro name exts folders
    induction folders with
    | nil => intro first; rfl
    | cons e folders ih => intro first; simp only [FileFinder.findFirstFolders, h1, ih]
  simp only [FileFinder.findFirst, h2]

theorem alike_findLast {b : Build} {w w' : World} (h : w.pathExists = w'.pathExists) (f : FileFinder) (am : Bool) :
    f.findLast b w am = f.findLast b w' am := by
  have h1 : ∀ base exts first, FileFinder.findLastExts b w am base first exts = FileFinder.findLastExts b w' am base first exts := by
    intro base exts
    induction exts with
    | nil => intro first; rfl
    | cons e exts ih => intro first; simp only [FileFinder.findLastExts, h, alike_new h, ih]
  have h2 : ∀ name exts folders first, FileFinder.findLastFolders b w am name exts first folders =
      FileFinder.findLastFolders b w' am name exts first folders := by
    intro name exts folders
    induction folders with
    | nil => intro first; rfl
    | cons e folders ih => intro first; simp only [FileFinder.findLastFolders, h1, ih]
  simp only [FileFinder.findLast, h2]

theorem alike_findAll {b : Build} {w w' : World} (h : w.pathExists = w'.pathExists) (f : FileFinder) (am : Bool) :
    f.findAll b w am = f.findAll b w' am := by
  have h1 : ∀ base exts first, FileFinder.findAllExts b w am base first exts = FileFinder.findAllExts b w' am base first exts := by
    intro base exts
    induction exts with
    | nil => intro first; rfl
    | cons e exts ih => intro first; simp only [FileFinder.findAllExts, h, alike_new h, ih]
  have h2 : ∀ name exts folders first, FileFinder.findAllFolders b w am name exts first folders =
      FileFinder.findAllFolders b w' am name exts first folders := by
    intro name exts folders
    induction folders with
    | nil => intro first; rfl
    | cons e folders ih => intro first; simp only [FileFinder.findAllFolders, h1, ih]
  simp only [FileFinder.findAll, h2]

theorem alike_findAllOrFirst {b : Build} {w w' : World} (h : w.pathExists = w'.pathExists) (f : FileFinder) :
    f.findAllOrFirst b w = f.findAllOrFirst b w' := by
  have h1 : ∀ base exts first, FileFinder.findAllOrFirstExts b w base first exts = FileFinder.findAllOrFirstExts b w' base first exts := by
    intro base exts
    induction exts with
    | nil => intro first; rfl
    | cons e exts ih => intro first; simp only [FileFinder.findAllOrFirstExts, h, alike_new h, ih]
  have h2 : ∀ name exts folders first, FileFinder.findAllOrFirstFolders b w name exts first folders =
      FileFinder.findAllOrFirstFolders b w' name exts first folders := by
    intro name exts folders
    induction folders with
    | nil => intro first; rfl
    | cons e folders ih => intro first; simp only [FileFinder.findAllOrFirstFolders, h1, ih]
  simp only [FileFinder.findAllOrFirst, h2]

/-! ## Writing -/

theorem alike_put {b : Build} {fm : Formats} {w w' : World} (h : WorldAlike b fm w w') (s : Nat) {n n' : Node}
    (hn : NodeAlike b fm w.locate s n n') : WorldAlike b fm (w.put s n) (w'.put s n') := by
  refine ⟨?_, fun s' => ?_⟩
  · have := h.1
    unfold World.put
    rw [this]
  · simp only [World.put]
    by_cases hs : s' = s
    · subst hs; simp only [if_true]; exact hn
    · simp only [hs, if_false]; exact h.2 s'

theorem put_put (w : World) (s : Nat) (n n' : Node) : (w.put s n).put s n' = w.put s n' := by
  unfold World.put
  congr 1
  funext x
  by_cases h : x = s <;> simp [h]

theorem fsWrite_all (w : World) (p : OsStr) (t : String) (hr : w.room (w.locate p) = none) : w.fsWrite p t =
    match w.disk (w.locate p) with
    | .absent (some code) => (.error (.refused code), w)
    | .absent none => (.ok (), w.put (w.locate p) (.file (utf8 t) none none))
    | .other code => (.error (.refused code), w)
    | .file _ _ (some code) => (.error (.refused code), w)
    | .file _ r none => (.ok (), w.put (w.locate p) (.file (utf8 t) r none)) := by
  unfold World.fsWrite World.openTrunc
  have ha : ∀ (r : Option Nat), (w.put (w.locate p) (.file [] r none)).appendBytes (w.locate p) (utf8 t) = w.put (w.locate p) (.file (utf8 t) r none) := by
    intro r
    have : (w.put (w.locate p) (.file [] r none)).disk (w.locate p) = .file [] r none := by simp [World.put]
    unfold World.appendBytes
    rw [this]
    simp only [List.nil_append]
    exact put_put w _ _ _
  rcases w.disk (w.locate p) with (_ | _) | ⟨bs, r, _ | _⟩ | _
  · simp only [hr, ha]
  · rfl
  · simp only [hr, ha]
  · rfl
  · rfl

theorem alike_write {b : Build} {fm : Formats} {w w' : World} (h : WorldAlike b fm w w') (ht : Tidy b fm w)
    (hb : ∀ p cd, FormatOf b fm p cd → OrderBlind cd) {l l' : Layer} (hl : ReorderedLayer l l') (hk : KnownLayer b fm l) {v v' : Value}
    (hv : Reordered v v') :
    seeWrite (l.writeValue w v).1 = seeWrite (l'.writeValue w' v').1 ∧ WorldAlike b fm (l.writeValue w v).2 (l'.writeValue w' v').2 ∧
      SameEnv w (l.writeValue w v).2 := by
  cases hl with
  | memory _ => exact ⟨rfl, h, rfl⟩
  | same hp =>
    cases hk with
    | memory v => exact ⟨rfl, h, rfl⟩
    | environment pre => exact ⟨rfl, h, rfl⟩
    | user l hbl => exact ⟨(hbl.write w w' v v' h hv).1, (hbl.write w w' v v' h hv).2, hbl.disk w v⟩
    | file p cd hf =>
      simp only [Layer.writeValue, textHandler]
      rcases hb p cd hf v v' hv with ⟨m, m', e1, e2⟩ | ⟨t, t', e1, e2, ha⟩
      · rw [e1, e2]; exact ⟨rfl, h, rfl⟩
      · rw [e1, e2]
        dsimp only
        have hr := ht.2 (w.locate p)
        have hr' : w'.room (w'.locate p) = none := by rw [(alikeEnv h).room]; exact ht.2 _
        rw [fsWrite_all w p t hr, fsWrite_all w' p t' hr', (alikeEnv h).locate]
        have hn : ∀ r, NodeAlike b fm w.locate (w.locate p) (.file (utf8 t) r none) (.file (utf8 t') r none) := by
          intro r
          refine .files _ _ _ _ fun q cd' hq hf' => ?_
          rw [ht.1 q p cd' cd hf' hf hq]
          exact ha
        have := h.2 (w.locate p)
        revert this
        generalize w.disk (w.locate p) = n
        generalize w'.disk (w.locate p) = n'
        intro this
        cases this with
        | same n =>
          rcases n with (_ | _) | ⟨bs, r, _ | _⟩ | _
          · exact ⟨rfl, alike_put h _ (hn _), rfl⟩
          · exact ⟨rfl, h, rfl⟩
          · exact ⟨rfl, alike_put h _ (hn _), rfl⟩
          · exact ⟨rfl, h, rfl⟩
          · exact ⟨rfl, h, rfl⟩
        | files bs bs' r wr hh =>
          cases wr with
          | none => exact ⟨rfl, alike_put h _ (hn _), rfl⟩
          | some code => exact ⟨rfl, h, rfl⟩

theorem tidy_env {b : Build} {fm : Formats} {w w' : World} (h : SameEnv w w') (ht : Tidy b fm w) : Tidy b fm w' := by
  unfold Tidy
  rw [h.locate, h.room]
  exact ht

/-! ## Known layers -/

theorem known_reordered {b : Build} {fm : Formats} {l l' : Layer} (h : ReorderedLayer l l') (hk : KnownLayer b fm l) : KnownLayer b fm l' := by
  cases h with
  | memory => exact .memory _
  | same => exact hk

/-- All layers of the configuration are known. -/
def KnownConfig (b : Build) (fm : Formats) (c : Config) : Prop := ∀ name l, hmGet c.layers name = some l → KnownLayer b fm l

theorem knownConfig_reordered {b : Build} {fm : Formats} {c c' : Config} (h : ReorderedConfig c c') (hk : KnownConfig b fm c) :
    KnownConfig b fm c' := by
  intro name l hl
  have := h.2 name
  rw [hl] at this
  revert this
  cases hc : hmGet c.layers name <;> intro this <;> cases this
  exact known_reordered ‹_› (hk name _ hc)

theorem knownAll_reordered {b : Build} {fm : Formats} {σ σ' : Holdings} (h : ReorderedAll σ σ') (hk : KnownAll b fm σ) : KnownAll b fm σ' :=
  fun n => knownConfig_reordered (h.2 n) (hk n)

theorem known_push {b : Build} {fm : Formats} {c : Config} (hk : KnownConfig b fm c) (name : String) {l : Layer} (hl : KnownLayer b fm l) :
    KnownConfig b fm (c.pushLayer name l) := by
  intro n x hx
  unfold Config.pushLayer at hx
  split at hx
  · exact hk n x hx
  · rw [hmGet_insert] at hx
    split at hx
    · cases hx; exact hl
    · exact hk n x hx

theorem known_addFile {b : Build} {fm : Formats} {c : Config} (hk : KnownConfig b fm c) (name : String) (p : OsStr) :
    KnownConfig b fm (c.addFileLayer b fm name p).2 := by
  rw [addFileLayer_eq]
  cases ho : (RegCall.file name p).offer b fm with
  | none => exact hk
  | some e =>
    obtain ⟨cd, rfl, hf⟩ := offer_file ho
    exact known_push hk name (.file p cd hf)

theorem known_put {b : Build} {fm : Formats} {σ : Holdings} (h : KnownAll b fm σ) (dst : Nat) (v : Value) : KnownAll b fm (σ.put dst v) := h
theorem known_putCfg {b : Build} {fm : Formats} {σ : Holdings} (h : KnownAll b fm σ) (dst : Nat) {c : Config} (hc : KnownConfig b fm c) :
    KnownAll b fm (σ.putCfg dst c) := by
  intro n
  simp only [Holdings.putCfg]
  by_cases hn : n = dst
  · simp only [hn, if_true]; exact hc
  · simp only [hn, if_false]; exact h n

theorem known_exec {b : Build} {fm : Formats} (w : World) {σ : Holdings} (h : KnownAll b fm σ) (i : Instr) (hi : ∀ c n l hl, i ≠ .addUser c n l hl) :
    KnownAll b fm (exec b fm w σ i).2 := by
  cases i with
  | addUser c n l hl => exact absurd rfl (hi c n l hl)
  | newConfig c => exact known_putCfg h c (fun n l hl => by cases hl)
  | addMemory c name src => exact known_putCfg h c (known_push (h c) name (.memory _))
  | addEnvironment c name pre => exact known_putCfg h c (known_push (h c) name (.environment _))
  | addFile c name path => exact known_putCfg h c (known_addFile (h c) name path)
  | _ =>
    simp only [exec]
    first
      | exact h
      | (split <;> first | exact h | (split <;> exact h))

theorem exec_alike {b : Build} {fm : Formats} {w w' : World} (hw : WorldAlike b fm w w') {σ σ' : Holdings} (h : ReorderedAll σ σ')
    (hk : KnownAll b fm σ) (i : Instr) :
    forget (exec b fm w σ i).1 = forget (exec b fm w' σ' i).1 ∧ ReorderedAll (exec b fm w σ i).2 (exec b fm w' σ' i).2 := by
  cases i with
  | readLayer dst c name =>
    simp only [exec, Config.getLayer]
    have := (h.2 c).2 name
    have hk' := hk c name
    revert this hk'
    cases hmGet (σ.cfgs c).layers name <;> cases hmGet (σ'.cfgs c).layers name <;> intro this hk' <;> cases this
    · exact ⟨rfl, h⟩
    · rename_i l l' h'
      have := alike_read hw h' (hk' l rfl)
      revert this
      dsimp only
      generalize l.readValue w = x
      generalize l'.readValue w' = x'
      intro this
      cases this with
      | ok h3 => exact ⟨rfl, put_reordered h dst h3⟩
      | error e => exact ⟨rfl, h⟩
      | parse m m' => exact ⟨rfl, h⟩
  | build dst c skip =>
    simp only [exec, Config.buildValue]
    have hm : Reordered Value.newMap Value.newMap := Reordered.refl (C22_unique_keys .none .none trivial trivial "" 0).2.1
    rw [← (h.2 c).1]
    have := alike_buildLoop hw (h.2 c) (hk c) skip (σ.cfgs c).names _ _ hm
    revert this
    generalize (σ.cfgs c).buildLoop w skip _ _ = x
    generalize (σ'.cfgs c).buildLoop w' skip _ _ = x'
    intro this
    cases this with
    | ok h3 => exact ⟨rfl, put_reordered h dst h3⟩
    | error e => exact ⟨rfl, h⟩
    | parse m m' => exact ⟨rfl, h⟩
  | _ => obtain ⟨e1, e2⟩ := exec_reordered b fm w h _; exact ⟨congrArg forget e1, e2⟩

/-! ## `create_config!` -/

theorem valueMap_reordered {args args' : List (String × Value)} (h : List.Forall₂ (fun a a' => a.1 = a'.1 ∧ Reordered a.2 a'.2) args args') :
    ∀ v v' : Value, Reordered v v' →
    Option.Rel Reordered (args.foldl (fun acc kv => acc.bind fun m => unwrapUnit (m.set kv.1 kv.2)) (some v))
      (args'.foldl (fun acc kv => acc.bind fun m => unwrapUnit (m.set kv.1 kv.2)) (some v')) := by
  have hnone : ∀ l : List (String × Value), l.foldl (fun acc kv => acc.bind fun m => unwrapUnit (m.set kv.1 kv.2)) (none : Option Value) = none := by
    intro l; induction l with
    | nil => rfl
    | cons a l ih => exact ih
  induction h with
  | nil => intro v v' hv; exact .some hv
  | @cons a a' l l' ha _ ih =>
    intro v v' hv
    obtain ⟨h1, h2⟩ := reordered_set hv ha.2 a.1
    simp only [List.foldl_cons, Option.bind_some, ← ha.1]
    unfold unwrapUnit at hnone ⊢
    cases e : v.set a.1 a.2 with
    | mk r x =>
      cases e' : v'.set a.1 a'.2 with
      | mk r' x' =>
        rw [e, e'] at h1 h2
        dsimp only at h1 h2
        subst h1
        cases r with
        | ok => exact ih x x' h2
        | error => dsimp only; rw [hnone, hnone]; exact .none

theorem mStep_alike {b : Build} {fm : Formats} (hb : ∀ p cd, FormatOf b fm p cd → OrderBlind cd) (name : String) {dv dv' : Value}
    (hd : Reordered dv dv') (ls : List LayerSpec) : ∀ (c c' : Config) (w w' : World), ReorderedConfig c c' → KnownConfig b fm c →
    WorldAlike b fm w w' → Tidy b fm w →
    ReorderedConfig (ls.foldl (mStep b fm name dv) (c, w)).1 (ls.foldl (mStep b fm name dv') (c', w')).1 ∧
    KnownConfig b fm (ls.foldl (mStep b fm name dv) (c, w)).1 ∧
    WorldAlike b fm (ls.foldl (mStep b fm name dv) (c, w)).2 (ls.foldl (mStep b fm name dv') (c', w')).2 ∧
    SameEnv w (ls.foldl (mStep b fm name dv) (c, w)).2 := by
  induction ls with
  | nil => intro c c' w w' hc hk hw ht; exact ⟨hc, hk, hw, rfl⟩
  | cons l ls ih =>
    intro c c' w w' hc hk hw ht
    simp only [List.foldl_cons]
    have hcand : chosen w' (layerCandidates b w' name l) = chosen w (layerCandidates b w name l) := by
      rw [(alikeEnv hw).candidates]; unfold chosen; rw [alike_exists hw]
    cases hch : chosen w (layerCandidates b w name l) with
    | none =>
      have e1 : mStep b fm name dv (c, w) l = (c, w) := by simp only [mStep, hch]
      have e2 : mStep b fm name dv' (c', w') l = (c', w') := by simp only [mStep, hcand, hch]
      rw [e1, e2]
      exact ih c c' w w' hc hk hw ht
    | some p =>
      have e1 : mStep b fm name dv (c, w) l = ((RegCall.file l.name p).apply b fm c,
        initLayer w ((RegCall.file l.name p).apply b fm c) ((RegCall.file l.name p).offer b fm).isSome p l dv) := by simp only [mStep, hch]
      have e2 : mStep b fm name dv' (c', w') l = ((RegCall.file l.name p).apply b fm c',
        initLayer w' ((RegCall.file l.name p).apply b fm c') ((RegCall.file l.name p).offer b fm).isSome p l dv') := by simp only [mStep, hcand, hch]
      rw [e1, e2]
      have hc2 : ReorderedConfig ((RegCall.file l.name p).apply b fm c) ((RegCall.file l.name p).apply b fm c') := by
        simp only [RegCall.apply, addFileLayer_eq]
        cases ho : (RegCall.file l.name p).offer b fm with
        | none => exact hc
        | some e =>
          obtain ⟨cd, rfl, hf⟩ := offer_file ho
          exact reordered_push_layer hc l.name (.same (proper_builtin_file p cd))
      have hk2 : KnownConfig b fm ((RegCall.file l.name p).apply b fm c) := known_addFile hk l.name p
      generalize (RegCall.file l.name p).apply b fm c = c2 at hc2 hk2 ⊢
      generalize (RegCall.file l.name p).apply b fm c' = c2' at hc2 ⊢
      generalize ((RegCall.file l.name p).offer b fm).isSome = added
      have hi : WorldAlike b fm (initLayer w c2 added p l dv) (initLayer w' c2' added p l dv') ∧ SameEnv w (initLayer w c2 added p l dv) := by
        unfold initLayer
        rw [← alike_exists hw]
        cases l.init with
        | none => exact ⟨hw, rfl⟩
        | some flag =>
          dsimp only
          split
          · have h2 := hc2.2 l.name
            have hk' := hk2 l.name
            simp only [Config.getLayer]
            revert h2 hk'
            cases hmGet c2.layers l.name <;> cases hmGet c2'.layers l.name <;> intro h2 hk' <;> cases h2
            · exact ⟨hw, rfl⟩
            · rename_i x x' hx
              exact (alike_write hw ht hb hx (hk' x rfl) hd).2
          · exact ⟨hw, rfl⟩
      obtain ⟨g1, g2, g3, g4⟩ := ih c2 c2' _ _ hc2 hk2 hi.1 (tidy_env hi.2 ht)
      exact ⟨g1, g2, g3, hi.2.trans g4⟩

theorem create_alike {b : Build} {fm : Formats} (hb : ∀ p cd, FormatOf b fm p cd → OrderBlind cd) {w w' : World} (hw : WorldAlike b fm w w')
    (ht : Tidy b fm w) (name : String) (env : Option String) (layers : List LayerSpec) {d d' : List (String × Value)}
    (hd : List.Forall₂ (fun a a' => a.1 = a'.1 ∧ Reordered a.2 a'.2) d d') :
    ∃ c c' w₁ w₁', createConfig b fm w ⟨name, d, env, layers⟩ = .ok (c, w₁) ∧ createConfig b fm w' ⟨name, d', env, layers⟩ = .ok (c', w₁') ∧
      ReorderedConfig c c' ∧ KnownConfig b fm c ∧ WorldAlike b fm w₁ w₁' ∧ SameEnv w w₁ := by
  obtain ⟨dv, h1, h2⟩ := createConfig_eq b fm w ⟨name, d, env, layers⟩
  obtain ⟨dv', h1', h2'⟩ := createConfig_eq b fm w' ⟨name, d', env, layers⟩
  have hv : Reordered dv dv' := by
    have := valueMap_reordered hd _ _ (Reordered.refl (C22_unique_keys .none .none trivial trivial "" 0).2.1)
    have e1 : d.foldl (fun acc kv => acc.bind fun m => unwrapUnit (m.set kv.1 kv.2)) (some Value.newMap) = some dv := h1
    have e2 : d'.foldl (fun acc kv => acc.bind fun m => unwrapUnit (m.set kv.1 kv.2)) (some Value.newMap) = some dv' := h1'
    rw [e1, e2] at this
    cases this; assumption
  have hc0 : ReorderedConfig (register b fm [.memory "default" dv]) (register b fm [.memory "default" dv']) :=
    reordered_push_layer (c := Config.new) (c' := Config.new) ⟨rfl, fun _ => .none⟩ "default" (.memory hv)
  have hk0 : KnownConfig b fm (register b fm [.memory "default" dv]) :=
    known_push (c := Config.new) (fun n l hl => by cases hl) "default" (.memory dv)
  obtain ⟨g1, g2, g3, g4⟩ := mStep_alike hb name hv layers _ _ w w' hc0 hk0 hw ht
  refine ⟨_, _, _, _, h2, h2', ?_, ?_, g3, g4⟩
  · cases env with
    | none => exact g1
    | some pre => exact reordered_push_layer g1 "environment" (.same fun w v hv => uniqueKeys_readEnv hv)
  · cases env with
    | none => exact g2
    | some pre => exact known_push g2 "environment" (.environment _)

/-! ## One call -/

theorem execW_alike {b : Build} {fm : Formats} (hb : ∀ p cd, FormatOf b fm p cd → OrderBlind cd) {w w' : World} (hw : WorldAlike b fm w w')
    (ht : Tidy b fm w) {σ σ' : Holdings} (h : ReorderedAll σ σ') (hk : KnownAll b fm σ) (i : WInstr) :
    (execW b fm w σ i).1 = (execW b fm w' σ' i).1 ∧ ReorderedAll (execW b fm w σ i).2.1 (execW b fm w' σ' i).2.1 ∧
    KnownAll b fm (execW b fm w σ i).2.1 ∧ WorldAlike b fm (execW b fm w σ i).2.2 (execW b fm w' σ' i).2.2 ∧
    SameEnv w (execW b fm w σ i).2.2 := by
  have layer : ∀ c name, (∃ l l', (σ.cfgs c).getLayer name = some l ∧ (σ'.cfgs c).getLayer name = some l' ∧ ReorderedLayer l l' ∧
      KnownLayer b fm l) ∨ ((σ.cfgs c).getLayer name = none ∧ (σ'.cfgs c).getLayer name = none) := by
    intro c name
    simp only [Config.getLayer]
    have := (h.2 c).2 name
    have hk' := hk c name
    revert this hk'
    cases hmGet (σ.cfgs c).layers name <;> cases hmGet (σ'.cfgs c).layers name <;> intro this hk' <;> cases this
    · exact .inr ⟨rfl, rfl⟩
    · exact .inl ⟨_, _, rfl, rfl, ‹_›, hk' _ rfl⟩
  cases i with
  | call i hi =>
    obtain ⟨e1, e2⟩ := exec_alike hw h hk i
    exact ⟨congrArg WTold.told e1, e2, known_exec w hk i hi, hw, rfl⟩
  | addUser c name l hl =>
    exact ⟨rfl, putCfg_reordered h c (reordered_push_layer (h.2 c) name (.same (blind_proper hl))),
      known_putCfg hk c (known_push (hk c) name (.user l (hl b fm))), hw, rfl⟩
  | hasValue c name =>
    simp only [execW]
    rcases layer c name with ⟨l, l', e1, e2, e3, e4⟩ | ⟨e1, e2⟩
    · simp only [e1, e2, (alike_has hw e3 e4).1]; exact ⟨trivial, h, hk, hw, rfl⟩
    · simp only [e1, e2]; exact ⟨trivial, h, hk, hw, rfl⟩
  | canWrite c name =>
    simp only [execW]
    rcases layer c name with ⟨l, l', e1, e2, e3, e4⟩ | ⟨e1, e2⟩
    · simp only [e1, e2, (alike_has hw e3 e4).2]; exact ⟨trivial, h, hk, hw, rfl⟩
    · simp only [e1, e2]; exact ⟨trivial, h, hk, hw, rfl⟩
  | write c name src =>
    simp only [execW]
    rcases layer c name with ⟨l, l', e1, e2, e3, e4⟩ | ⟨e1, e2⟩
    · obtain ⟨g1, g2, g3⟩ := alike_write hw ht hb e3 e4 (h.1 src)
      simp only [e1, e2, g1]; exact ⟨trivial, h, hk, g2, g3⟩
    · simp only [e1, e2]; exact ⟨trivial, h, hk, hw, rfl⟩
  | find name calls s =>
    refine ⟨?_, h, hk, hw, rfl⟩
    cases s <;>
      simp only [execW, alike_finder hw, alike_findFirst (alike_exists hw), alike_findLast (alike_exists hw), alike_findAll (alike_exists hw), alike_findAllOrFirst (alike_exists hw)]
  | create c name d env layers =>
    have hd : List.Forall₂ (fun a a' => a.1 = a'.1 ∧ Reordered a.2 a'.2) (d.map fun e => (e.1, σ.vals e.2)) (d.map fun e => (e.1, σ'.vals e.2)) := by
      induction d with
      | nil => exact .nil
      | cons a d ih => exact .cons ⟨rfl, h.1 a.2⟩ ih
    obtain ⟨x, x', w₁, w₁', e1, e2, g1, g2, g3, g4⟩ := create_alike hb hw ht name env layers hd
    simp only [execW, e1, e2]
    exact ⟨trivial, putCfg_reordered h c g1, known_putCfg hk c g2, g3, g4⟩

theorem event_alike {b : Build} {fm : Formats} (es : List Event) : ∀ {w w' : World}, WorldAlike b fm w w' → Tidy b fm w →
    WorldAlike b fm (es.foldl Event.apply w) (es.foldl Event.apply w') ∧ Tidy b fm (es.foldl Event.apply w) := by
  induction es with
  | nil => intro w w' h ht; exact ⟨h, ht⟩
  | cons e es ih =>
    intro w w' h ht
    simp only [List.foldl_cons]
    have h1 := h.1
    refine ih (w := e.apply w) (w' := e.apply w') ?_ ?_
    · cases e with
      | put s n => exact alike_put h s (.same n)
      | setEnv env => exact ⟨by simp only [Event.apply]; rw [h1], h.2⟩
      | setDirs d c => exact ⟨by simp only [Event.apply]; rw [h1], h.2⟩
    · cases e <;> exact ht

theorem runW_extends {b : Build} {fm : Formats} {p : WProgram} {ev : Nat → List Event} {t t' : List WTold} {σ σ' : Holdings} {w w' : World}
    (h : RunW b fm p ev t σ w t' σ' w') : t <:+ t' := by
  induction h with
  | here => exact List.suffix_refl _
  | step _ _ _ ih => exact (List.suffix_cons _ _).trans ih

/-- **C96.** Two runs of one program that writes files, searches and runs `create_config!`, while others change the world in the same way: however the
maps are ordered, the two are told the same, make the same calls, hold the same, and leave worlds that differ at most in the bytes of files that
are read alike. -/
theorem C96_hash_order (b : Build) (fm : Formats) (hb : ∀ p cd, FormatOf b fm p cd → OrderBlind cd) (p : WProgram) (ev : Nat → List Event)
    (t t₁ t₂ : List WTold) (σ σ' σ₁ σ₂ : Holdings) (w w' w₁ w₂ : World) (h0 : ReorderedAll σ σ') (hw : WorldAlike b fm w w')
    (ht : Tidy b fm w) (hk : KnownAll b fm σ) (h1 : RunW b fm p ev t σ w t₁ σ₁ w₁) (h2 : RunW b fm p ev t σ' w' t₂ σ₂ w₂) :
    (t₁ <:+ t₂ ∨ t₂ <:+ t₁) ∧ (t₁.length = t₂.length → t₁ = t₂ ∧ ReorderedAll σ₁ σ₂ ∧ WorldAlike b fm w₁ w₂) := by
  induction h1 generalizing σ' w' with
  | here h =>
    have hx := runW_extends h2
    refine ⟨.inl hx, fun hl => ⟨hx.eq_of_length hl, ?_⟩⟩
    cases h2 with
    | here h' => exact ⟨ReorderedAll.trans (ReorderedAll.symm h) (ReorderedAll.trans h0 h'), hw⟩
    | step _ _ h' =>
      have := (runW_extends h').length_le
      simp at this; omega
  | step hi hr h ih =>
    cases h2 with
    | here h' =>
      have hx := (List.suffix_cons _ _).trans (runW_extends h)
      refine ⟨.inr hx, fun hl => ?_⟩
      have := (runW_extends h).length_le
      simp at this; omega
    | step hi' hr' h' =>
      rw [hi] at hi'; cases hi'
      obtain ⟨e1, e2⟩ := event_alike (ev _) hw ht
      obtain ⟨g1, g2, g3, g4, g5⟩ := execW_alike hb e1 e2 (ReorderedAll.trans (ReorderedAll.symm hr) (ReorderedAll.trans h0 hr'))
        (knownAll_reordered hr hk) _
      rw [← g1] at h'
      exact ih _ _ g2 g4 (tidy_env g5 e2) g3 h'

/-- `n` calls without any reordering. -/
def plainStepsW (b : Build) (fm : Formats) (p : WProgram) (ev : Nat → List Event) : Nat → List WTold × Holdings × World → List WTold × Holdings × World
  | 0, s => s
  | n + 1, s => match p s.1 with
    | none => s
    | some i =>
      let r := execW b fm ((ev s.1.length).foldl Event.apply s.2.2) s.2.1 i
      plainStepsW b fm p ev n (r.1 :: s.1, r.2)

theorem run_plainStepsW {b : Build} {fm : Formats} (hb : ∀ p cd, FormatOf b fm p cd → OrderBlind cd) (p : WProgram) (ev : Nat → List Event) (n : Nat) :
    ∀ (t : List WTold) (σ : Holdings) (w : World), ReorderedAll σ σ → KnownAll b fm σ → Tidy b fm w →
    RunW b fm p ev t σ w (plainStepsW b fm p ev n (t, σ, w)).1 (plainStepsW b fm p ev n (t, σ, w)).2.1 (plainStepsW b fm p ev n (t, σ, w)).2.2 := by
  induction n with
  | zero => intro t σ w h _ _; exact .here h
  | succ n ih =>
    intro t σ w h hk ht
    simp only [plainStepsW]
    cases hp : p t with
    | none => exact .here h
    | some i =>
      obtain ⟨e1, e2⟩ := event_alike (ev t.length) (WorldAlike.refl b fm w) ht
      obtain ⟨-, g2, g3, -, g5⟩ := execW_alike hb e1 e2 h hk i
      exact .step hp h (ih _ _ _ g2 g3 (tidy_env g5 e2))

/-- **C96.** A run never gets stuck: it can be continued for any number of calls, unless the program stops. -/
theorem C96_goes_on (b : Build) (fm : Formats) (hb : ∀ p cd, FormatOf b fm p cd → OrderBlind cd) (p : WProgram) (ev : Nat → List Event) (n : Nat)
    (t : List WTold) (σ σ' : Holdings) (w : World) (h : ReorderedAll σ σ') (hk : KnownAll b fm σ) (ht : Tidy b fm w) :
    ∃ t' σ'' w', RunW b fm p ev t σ w t' σ'' w' ∧ (t'.length = t.length + n ∨ p t' = none) := by
  have h' : ReorderedAll σ σ := ReorderedAll.trans h (ReorderedAll.symm h)
  refine ⟨_, _, _, run_plainStepsW hb p ev n t σ w h' hk ht, ?_⟩
  clear h h' hk ht
  induction n generalizing t σ w with
  | zero => exact .inl rfl
  | succ n ih =>
    simp only [plainStepsW]
    cases hp : p t with
    | none => exact .inr hp
    | some i =>
      rcases ih ((execW b fm ((ev t.length).foldl Event.apply w) σ i).1 :: t) (execW b fm ((ev t.length).foldl Event.apply w) σ i).2.1
        (execW b fm ((ev t.length).foldl Event.apply w) σ i).2.2 with h | h
      · exact .inl (by rw [h]; simp; omega)
      · exact .inr h

/-! ## A format that is blind to the order, and a program at work -/

theorem foldl_insert_nodup (m : Entries) : ∀ acc : Entries, ((acc ++ m).map Prod.fst).Nodup →
    m.foldl (fun m kv => hmInsert m kv.1 kv.2) acc = acc ++ m := by
  induction m with
  | nil => intro acc _; simp
  | cons e m ih =>
    intro acc h
    have h1 : e.1 ∉ acc.map Prod.fst := by
      rw [List.map_append, List.nodup_append] at h
      intro he
      exact h.2.2 e.1 he e.1 (by simp) rfl
    rw [List.foldl_cons, hmInsert_fresh h1, ih _ (by simpa using h)]
    simp

theorem pairs_map {α β : Type} {R : β → α → Prop} (f : α → β) : ∀ l : List α, (∀ x ∈ l, R (f x) x) → Pairs R (l.map f) l
  | [], _ => .nil
  | x :: l, h => .cons (h x List.mem_cons_self) (pairs_map f l fun y hy => h y (List.mem_cons_of_mem _ hy))

theorem visit_docOf (v : Value) (hu : UniqueKeys v) : visit (docOf v) = .ok v := by
  induction v using Value.ind with
  | array xs ih =>
    rw [docOf, visit, visitSeq_ok]
    refine ⟨xs, rfl, ?_⟩
    simp only [List.map_attach_eq_pmap, List.pmap_eq_map]
    exact pairs_map _ _ fun x hx => ih x hx (uniqueKeys_array.1 hu x hx)
  | map m ih =>
    have h := uniqueKeys_map.1 hu
    rw [docOf, visit, visitMap_ok]
    refine ⟨m, by rw [foldl_insert_nodup m [] (by simpa using h.1)]; rfl, ?_⟩
    simp only [List.map_attach_eq_pmap, List.pmap_eq_map]
    exact pairs_map _ _ fun e he => ⟨rfl, ih e he (h.2 e he)⟩
  | _ => rw [docOf]; rfl

theorem tomlHolds_same {v : Value} (h : TomlHolds v) : ∀ v', Reordered v v' → TomlHolds v' := by
  induction h with
  | boolean b => intro v' h; rw [same_scalar rfl h.1]; exact .boolean b
  | float b => intro v' h; rw [same_scalar rfl h.1]; exact .float b
  | string b => intro v' h; rw [same_scalar rfl h.1]; exact .string b
  | integer b => intro v' h; rw [same_scalar rfl h.1]; exact .integer b
  | uInteger b => intro v' h; rw [same_scalar rfl h.1]; exact .uInteger b
  | @array xs hx ih =>
    intro v' h
    obtain ⟨ys, rfl⟩ := same_array_left h.1
    refine .array fun y hy => ?_
    obtain ⟨i, hi⟩ := List.getElem?_of_mem hy
    obtain ⟨h1, h2⟩ := same_array.1 h.1
    obtain ⟨x, hx'⟩ := get_of_lt (show i < xs.length by have := lt_of_get hi; omega)
    exact ih x (List.mem_of_getElem? hx') y ⟨h2 i x y hx' hi, uniqueKeys_array.1 h.2.1 _ (List.mem_of_getElem? hx'), uniqueKeys_array.1 h.2.2 _ hy⟩
  | @map m hm ih =>
    intro v' h
    obtain ⟨n, rfl⟩ := same_map_left h.1
    refine .map fun e he hne => ?_
    have hu := uniqueKeys_map.1 h.2.1
    have hu' := uniqueKeys_map.1 h.2.2
    have hg : hmGet n e.1 = some e.2 := hmGet_of_mem hu'.1 he
    obtain ⟨h1, h2⟩ := same_map.1 h.1 e.1
    cases hgm : hmGet m e.1 with
    | none => rw [h1.1 hgm] at hg; cases hg
    | some x =>
      have hmem := hmGet_mem hgm
      have hr : Reordered x e.2 := ⟨h2 x e.2 hgm hg, hu.2 _ hmem, hu'.2 _ he⟩
      refine ih (e.1, x) hmem ?_ e.2 hr
      intro hx
      have hx : x = .none := hx
      subst hx
      exact hne (same_scalar rfl hr.1)

open Classical in
theorem exToml_orderBlind : OrderBlind exToml := by
  intro v v' h
  by_cases hv : v.isMap = true ∧ TomlHolds v
  · right
    have hv' : v'.isMap = true ∧ TomlHolds v' := ⟨by rw [← same_isMap h.1]; exact hv.1, tomlHolds_same hv.2 v' h⟩
    refine ⟨_, _, exToml_print hv.1 hv.2, exToml_print hv'.1 hv'.2, ?_⟩
    have hs : ∀ u, UniqueKeys u → fileSays exToml (utf8 (exists_text.choose u)) = .ok (prune u) := by
      intro u hu
      unfold fileSays
      rw [ofUtf8_utf8]
      dsimp only
      rw [exToml_parse]
      dsimp only
      rw [visit_docOf _ (uniqueKeys_prune u hu)]
    rw [hs v h.2.1, hs v' h.2.2]
    refine .ok ⟨?_, uniqueKeys_prune v h.2.1, uniqueKeys_prune v' h.2.2⟩
    refine same_of_omitting (omitting_prune' h.2.1) ?_
    intro p
    have := omitting_prune' h.2.2 p
    unfold NullEntry at this ⊢
    rw [h.1 p]
    exact this
  · left
    have hv' : ¬ (v'.isMap = true ∧ TomlHolds v') := fun h' =>
      hv ⟨by rw [same_isMap h.1]; exact h'.1, tomlHolds_same h'.2 v (Reordered.symm h)⟩
    have he : ∀ u : Value, ¬ (u.isMap = true ∧ TomlHolds u) → ∃ m, exToml.print u.toData = .error m := by
      intro u hu
      cases hp : exToml.print u.toData with
      | error m => exact ⟨m, rfl⟩
      | ok t => exact absurd (((exToml_like 80).prints u).1 ⟨t, hp⟩) hu
    obtain ⟨m, e⟩ := he v hv
    obtain ⟨m', e'⟩ := he v' hv'
    exact ⟨m, m', e, e'⟩

theorem exToml_blind (b : Build) : ∀ p cd, FormatOf b ⟨exToml, exToml⟩ p cd → OrderBlind cd := by
  rintro p cd (⟨-, -, rfl⟩ | ⟨-, -, rfl⟩) <;> exact exToml_orderBlind

theorem exDisk_tidy (b : Build) : Tidy b ⟨exToml, exToml⟩ exDisk := by
  refine ⟨?_, fun _ => rfl⟩
  rintro p q cd cd' (⟨-, -, rfl⟩ | ⟨-, -, rfl⟩) (⟨-, -, rfl⟩ | ⟨-, -, rfl⟩) - <;> rfl

/-- A program that saves a map to a TOML file, looks for the file and reads it back. -/
def exWriter : WProgram := fun t =>
  match t.length with
  | 0 => some (.call (.newConfig 0) (by simp))
  | 1 => some (.call (.addFile 0 "file" (os "/c.toml")) (by simp))
  | 2 => some (.write 0 "file" 0)
  | 3 => some (.hasValue 0 "file")
  | 4 => some (.find "c" [.supported, .folder (os "/")] (.first false))
  | 5 => some (.call (.readLayer 1 0 "file") (by simp))
  | 6 => some (.call (.len 1) (by simp))
  | _ => none

/-- What is held before: the map in variable 0. -/
theorem exHold_known (b : Build) (fm : Formats) (m : Entries) : KnownAll b fm (exHold m) := fun n name l hl => by cases hl

theorem exWriter_run (m : Entries) (hu : UniqueKeys (.map m)) : RunW exB1 ⟨exToml, exToml⟩ exWriter (fun _ => []) [] (exHold m) exDisk
    (plainStepsW exB1 ⟨exToml, exToml⟩ exWriter (fun _ => []) 7 ([], exHold m, exDisk)).1
    (plainStepsW exB1 ⟨exToml, exToml⟩ exWriter (fun _ => []) 7 ([], exHold m, exDisk)).2.1
    (plainStepsW exB1 ⟨exToml, exToml⟩ exWriter (fun _ => []) 7 ([], exHold m, exDisk)).2.2 :=
  run_plainStepsW (exToml_blind _) _ _ 7 _ _ _ (exHold_reordered (Reordered.refl hu)) (exHold_known _ _ _) (exDisk_tidy _)

/-- The disk afterwards. -/
def exWritten (bs : List UInt8) : World := exDisk.put 3 (.file bs none none)

theorem exWriter_steps (m : Entries) (hu : UniqueKeys (.map m)) (h : TomlHolds (.map m)) :
    (plainStepsW exB1 ⟨exToml, exToml⟩ exWriter (fun _ => []) 7 ([], exHold m, exDisk)).1 =
      [.told (.number (prune (.map m)).len), .told (.flag true), .found (.ok [⟨os "/c.toml", .custom "toml", 0, true⟩]), .told (.flag true), .told .nothing,
        .told .nothing, .told .nothing] ∧
    (plainStepsW exB1 ⟨exToml, exToml⟩ exWriter (fun _ => []) 7 ([], exHold m, exDisk)).2.2 = exWritten (utf8 (exists_text.choose (.map m))) := by
  have hp := exToml_print (v := .map m) rfl h
  generalize hT : exists_text.choose (.map m) = T at hp
  have hw : (Layer.file (textHandler exToml) (os "/c.toml")).writeValue exDisk (.map m) = (.ok (), exWritten (utf8 T)) := by
    simp only [Layer.writeValue, textHandler, hp]
    rw [fsWrite_all _ _ _ rfl]
    rfl
  have hr : (Layer.file (textHandler exToml) (os "/c.toml")).readValue (exWritten (utf8 T)) = .ok (prune (.map m)) := by
    have hex : World.pathExists (exWritten (utf8 T)) (os "/c.toml") = true := rfl
    simp only [Layer.readValue, hex, if_true]
    rw [handler_says]
    show fileSays exToml (utf8 T) = _
    unfold fileSays
    rw [ofUtf8_utf8, ← hT]
    dsimp only
    rw [exToml_parse]
    dsimp only
    rw [visit_docOf _ (uniqueKeys_prune _ hu)]
  have hf : ∀ bs, (finder exB1 (exWritten bs) "c" [.supported, .folder (os "/")]).findFirst exB1 (exWritten bs) false =
      .ok ⟨os "/c.toml", .custom "toml", 0, true⟩ := by
    intro bs
    have he : World.pathExists (exWritten bs) = World.pathExists (exWritten []) := by
      funext p
      simp only [World.pathExists, exWritten, World.put]
      by_cases hp : exDisk.locate p = 3
      · simp [hp]
      · simp [hp]
    rw [alike_findFirst he]
    show FileFinder.findFirst exB1 (exWritten []) (finder exB1 (exWritten []) "c" [.supported, .folder (os "/")]) false = _
    decide +kernel
  have ha : (Config.new.addFileLayer exB1 ⟨exToml, exToml⟩ "file" (os "/c.toml")) =
      (.ok (), ⟨["file"], [("file", .file (textHandler exToml) (os "/c.toml"))]⟩) := rfl
  have hex : ∀ bs, World.pathExists (exWritten bs) (os "/c.toml") = true := fun bs => rfl
  simp only [plainStepsW, exWriter, List.length_cons, List.length_nil, List.foldl_nil, execW, exec, Holdings.putCfg, Holdings.put, Config.getLayer, ha, forget,
    hmGet, if_true, exHold, hw, seeWrite, Layer.hasValue, hex, hf, single, hr, Nat.zero_add, Nat.reduceAdd]
  exact ⟨trivial, trivial⟩

/-- **C96.** What does depend on the order: the bytes of the file that is written. Here a program saves `{a: x, b: none}`, looks for the file and reads
it back: it is told the same in both orders, but the files differ. -/
theorem C96_bytes_differ : ∃ (t : List WTold) (σ σ' σ₁ σ₂ : Holdings) (w₁ w₂ : World), ReorderedAll σ σ' ∧
    RunW exB1 ⟨exToml, exToml⟩ exWriter (fun _ => []) [] σ exDisk t σ₁ w₁ ∧ RunW exB1 ⟨exToml, exToml⟩ exWriter (fun _ => []) [] σ' exDisk t σ₂ w₂ ∧
    t = [.told (.number 1), .told (.flag true), .found (.ok [⟨os "/c.toml", .custom "toml", 0, true⟩]), .told (.flag true), .told .nothing,
        .told .nothing, .told .nothing] ∧ w₁.disk 3 ≠ w₂.disk 3 := by
  have hT : TomlHolds (.map [("a", .string "x"), ("b", .none)]) := by
    refine .map ?_
    simp only [List.mem_cons, List.not_mem_nil, or_false, forall_eq_or_imp, forall_eq, ne_eq, not_true_eq_false, false_implies, and_true]
    exact fun _ => .string _
  have h1 := exWriter_steps _ exOrders.2.1 hT
  have h2 := exWriter_steps _ exOrders.2.2 (tomlHolds_same hT _ exOrders)
  have r1 := exWriter_run _ exOrders.2.1
  have r2 := exWriter_run _ exOrders.2.2
  rw [h1.1] at r1
  rw [h2.1] at r2
  have l1 : (prune (.map [("a", .string "x"), ("b", .none)])).len = 1 := by decide +kernel
  have l2 : (prune (.map [("b", .none), ("a", .string "x")])).len = 1 := by decide +kernel
  rw [l1] at r1
  rw [l2] at r2
  refine ⟨_, _, _, _, _, _, _, exHold_reordered exOrders, r1, r2, rfl, ?_⟩
  rw [h1.2, h2.2]
  intro he
  have he : Node.file (utf8 (exists_text.choose (.map [("a", .string "x"), ("b", .none)]))) none none =
    Node.file (utf8 (exists_text.choose (.map [("b", .none), ("a", .string "x")]))) none none := he
  injection he with he
  have := exists_text.choose_spec (utf8_inj he)
  simp at this

/-- A user's layer that says whether a file exists is blind. -/
example (p : OsStr) (b : Build) (fm : Formats) : Blind b fm (UserLayer.mk "probe" (fun _ => true) (fun _ => false)
    (fun w => .ok (.boolean (w.pathExists p))) (fun w _ => (.error (.configLayerError .writeNotSupported), w))) where
  has _ _ _ := rfl
  can _ _ _ := rfl
  read w w' h := by
    dsimp only
    rw [alike_exists h]
    exact .ok (Reordered.refl trivial)
  write w w' v v' h _ := ⟨rfl, h⟩
  disk _ _ := rfl

/-! ## Formats that are not blind to the order -/

/-- A format that keeps the first entry only. -/
def exFirstOnly : Codec where
  print d := match d with
    | .map ((.str k, _) :: _) => .ok k
    | _ => .ok ""
  parse s := .ok (.map [(.str s, .bool true)])

/-- **C96.** The demand on the format cannot be dropped: with a format that keeps only the first entry of a map, reading back tells the order. -/
theorem C96_format_matters : ∃ v v' : Value, Reordered v v' ∧ ∀ (w : World) (p : OsStr), w.disk (w.locate p) = .absent none → w.room (w.locate p) = none →
    ∃ x x', (Layer.file (textHandler exFirstOnly) p).readValue ((Layer.file (textHandler exFirstOnly) p).writeValue w v).2 = .ok x ∧
      (Layer.file (textHandler exFirstOnly) p).readValue ((Layer.file (textHandler exFirstOnly) p).writeValue w v').2 = .ok x' ∧
      view x [.key "a"] = some (.boolean true) ∧ view x' [.key "a"] = none := by
  refine ⟨_, _, exOrders, fun w p hd hr => ?_⟩
  have key : ∀ (u : Value) (t : String), exFirstOnly.print u.toData = .ok t →
      (Layer.file (textHandler exFirstOnly) p).readValue ((Layer.file (textHandler exFirstOnly) p).writeValue w u).2 =
        .ok (.map [(t, .boolean true)]) := by
    intro u t ht
    have hw : ((Layer.file (textHandler exFirstOnly) p).writeValue w u).2 = w.put (w.locate p) (.file (utf8 t) none none) := by
      simp only [Layer.writeValue, textHandler, ht]
      rw [fsWrite_all w p t hr, hd]
    have hdisk : (w.put (w.locate p) (.file (utf8 t) none none)).disk (w.locate p) = .file (utf8 t) none none := by simp [World.put]
    have hloc : (w.put (w.locate p) (.file (utf8 t) none none)).locate = w.locate := rfl
    have hex : (w.put (w.locate p) (.file (utf8 t) none none)).pathExists p = true := by
      unfold World.pathExists; rw [hloc, hdisk]
    rw [hw]
    simp only [Layer.readValue, hex, if_true]
    rw [handler_says, hloc, hdisk]
    dsimp only
    unfold fileSays
    rw [ofUtf8_utf8]
    rfl
  exact ⟨_, _, key _ "a" rfl, key _ "b" rfl, by decide, by decide⟩

/-! ### The theorems on the program that saves -/
example (t₁ t₂ : List WTold) (σ₁ σ₂ : Holdings) (w₁ w₂ : World)
    (h1 : RunW exB1 ⟨exToml, exToml⟩ exWriter (fun _ => []) [] (exHold [("a", .string "x"), ("b", .none)]) exDisk t₁ σ₁ w₁)
    (h2 : RunW exB1 ⟨exToml, exToml⟩ exWriter (fun _ => []) [] (exHold [("b", .none), ("a", .string "x")]) exDisk t₂ σ₂ w₂) (h : t₁.length = t₂.length) :
    t₁ = t₂ ∧ WorldAlike exB1 ⟨exToml, exToml⟩ w₁ w₂ :=
  ⟨((C96_hash_order exB1 ⟨exToml, exToml⟩ (exToml_blind _) exWriter (fun _ => []) [] t₁ t₂ _ _ σ₁ σ₂ exDisk exDisk w₁ w₂ (exHold_reordered exOrders)
      (WorldAlike.refl _ _ _) (exDisk_tidy _) (exHold_known _ _ _) h1 h2).2 h).1,
    ((C96_hash_order exB1 ⟨exToml, exToml⟩ (exToml_blind _) exWriter (fun _ => []) [] t₁ t₂ _ _ σ₁ σ₂ exDisk exDisk w₁ w₂ (exHold_reordered exOrders)
      (WorldAlike.refl _ _ _) (exDisk_tidy _) (exHold_known _ _ _) h1 h2).2 h).2.2⟩
example (n : Nat) : ∃ t' σ'' w', RunW exB1 ⟨exToml, exToml⟩ exWriter (fun _ => []) [] (exHold [("a", .string "x"), ("b", .none)]) exDisk t' σ'' w' ∧
    (t'.length = 0 + n ∨ exWriter t' = none) :=
  C96_goes_on exB1 ⟨exToml, exToml⟩ (exToml_blind _) exWriter (fun _ => []) n [] _ _ exDisk (exHold_reordered exOrders) (exHold_known _ _ _) (exDisk_tidy _)
example : ∃ v v' : Value, Reordered v v' ∧ ∃ x x',
    (Layer.file (textHandler exFirstOnly) (os "/n.toml")).readValue ((Layer.file (textHandler exFirstOnly) (os "/n.toml")).writeValue exDisk v).2 = .ok x ∧
    (Layer.file (textHandler exFirstOnly) (os "/n.toml")).readValue ((Layer.file (textHandler exFirstOnly) (os "/n.toml")).writeValue exDisk v').2 = .ok x' ∧
    view x [.key "a"] = some (.boolean true) ∧ view x' [.key "a"] = none := by
  obtain ⟨v, v', h, h2⟩ := C96_format_matters
  exact ⟨v, v', h, h2 exDisk (os "/n.toml") rfl rfl⟩

end Verif.Props
