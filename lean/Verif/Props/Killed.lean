import Verif.Spec.Killed
import Verif.Props.Macro
import Verif.Props.Writing
import Verif.Props.EndToEnd
/-!
# C130: starts that are killed

A process that calls `create_config!` is killed at any point, any number of times (or runs out of disk space); then the program is started again.
-/
namespace Verif.Props
open Verif Verif.Spec

variable {b : Build} {fm : Formats} {args : MacroArgs} {w w1 w2 w3 : World} {dv : Value} {c : Config}

/-- What may have been begun for one of these layers. -/
def BegunBy (b : Build) (fm : Formats) (name : String) (dv : Value) (w : World) (ls : List LayerSpec) (s : Nat) (bytes : List UInt8) : Prop :=
  ∃ l ∈ ls, l.init = some true ∧ ∃ p, (layerCandidates b w name l).head? = some p ∧ s = w.locate p ∧
    ∃ cd text, TextFmt b fm p cd ∧ cd.print dv.toData = .ok text ∧ bytes <+: utf8 text

theorem begun_of_made {name : String} {ls : List LayerSpec} {s : Nat} {bytes : List UInt8} (h : MadeBy b fm name dv w ls s bytes) :
    BegunBy b fm name dv w ls s bytes := by
  obtain ⟨l, hl, e1, p, e2, e3, cd, text, e4, e5, e6, -⟩ := h
  exact ⟨l, hl, e1, p, e2, e3, cd, text, e4, e5, e6⟩

/-- Dying in a write to a file that does not exist. -/
theorem created_crash (cd : Codec) (w w' : World) (p : OsStr) (v : Value) (h : w.pathExists p = false) (hc : CrashWorld cd p v w w') :
    Created (fun s bytes => s = w.locate p ∧ ∃ text, cd.print v.toData = .ok text ∧ bytes <+: utf8 text) w w' := by
  rcases hc with rfl | ⟨content, ph, hp, hs⟩
  · exact Created.refl _ _
  · rcases writeSteps_inv hs with h' | ⟨done, rest, w1, h1, h2, h3, h4⟩
    · cases h'; exact Created.refl _ _
    · obtain ⟨ho, r, hd, hcase⟩ := onlyAt_open h3
      dsimp only at h4
      subst h4
      have hat := ho.trans (onlyAt_append w1 (w.locate p) done)
      rcases hcase with ⟨ha, rfl⟩ | ⟨bs, ha⟩
      · refine ⟨hat.1, fun s => ?_⟩
        by_cases hs : s = w.locate p
        · subst hs
          exact Or.inr ⟨ha, done, ⟨rfl, content, hp, rest, h2⟩, by rw [append_file hd]; rfl⟩
        · exact Or.inl (hat.2 s hs)
      · unfold World.pathExists at h; rw [ha] at h; cases h

/-- Two handlers that are the same print the same. -/
theorem textHandler_prints {cd cd' : Codec} (h : textHandler cd = textHandler cd') (v : Value) : cd.print v.toData = cd'.print v.toData := by
  have hw := congrArg (fun x => FileHandler.write x { exMacroWorld with disk := fun _ => .absent none } [] v) h
  simp only [textHandler] at hw
  have hf : ∀ t, ({ exMacroWorld with disk := fun _ => .absent none } : World).fsWrite [] t =
      (.ok (), ({ exMacroWorld with disk := fun _ => .absent none } : World).put (exMacroWorld.locate []) (.file (utf8 t) none none)) := by
    intro t
    simp [World.fsWrite, World.openTrunc, World.appendBytes, World.put, exMacroWorld]
    funext s
    generalize (if os "/a/f.toml" = [] then 1 else if os "/b/f.toml" = [] then 2 else 3) = k
    by_cases hs : s = k <;> simp [hs]
  cases h1 : cd.print v.toData with
  | error m =>
    cases h2 : cd'.print v.toData with
    | error m' => rw [h1, h2] at hw; simp at hw; rw [hw]
    | ok t' => rw [h1, h2] at hw; simp [hf] at hw
  | ok t =>
    cases h2 : cd'.print v.toData with
    | error m' => rw [h1, h2] at hw; simp [hf] at hw
    | ok t' =>
      rw [h1, h2] at hw
      simp only [hf, Prod.mk.injEq, true_and] at hw
      have := congrArg (fun x => x.disk (exMacroWorld.locate [])) hw
      simp [World.put] at this
      rw [utf8_inj this]

/-- In the middle of a write the layer's name stands for the file that was found. -/
theorem dies_inside {name : String} {calls : List RegCall} {l : LayerSpec} (hfree : Free b fm calls l.name) {r : FindResult} {cd : Codec} {path : OsStr}
    (hr : layerFinder b w name l.dirs = .ok r) (ha : (register b fm calls).addFileLayer b fm l.name r.path = (.ok (), c))
    (hg : c.getLayer l.name = some (.file (textHandler cd) path)) :
    chosen w (layerCandidates b w name l) = some path ∧ path = r.path ∧ ∃ cd', TextFmt b fm path cd' ∧ (∀ v : Value, cd'.print v.toData = cd.print v.toData) ∧
      (register b fm calls).getLayer l.name = none := by
  have hch : chosen w (layerCandidates b w name l) = some r.path := by
    rcases layerFinder_spec b w name l with ⟨r', h1, h2⟩ | ⟨e, h1, -⟩
    · rw [hr] at h1; cases h1; exact h2
    · rw [hr] at h1; cases h1
  rw [addFileLayer_eq] at ha
  have hc : c = register b fm (calls ++ [.file l.name r.path]) := by
    rw [← register_append]
    simp only [RegCall.apply, addFileLayer_eq]
    rw [ha]
  cases hoff : (RegCall.file l.name r.path).offer b fm with
  | none => rw [hoff] at ha; cases ha
  | some e =>
    obtain ⟨cd', rfl, hcd⟩ := offer_file hoff
    rcases hfree with hf | ⟨v, hf⟩
    · have hg' := getLayer_append_new b fm calls l.name r.path cd' hf hcd
      rw [hc, hg', Option.some.injEq] at hg
      injection hg with e1 e2
      subst e2
      exact ⟨hch, rfl, cd', hcd, textHandler_prints e1, hf⟩
    · have hg' := C11_stable b fm calls [.file l.name r.path] l.name _ hf
      rw [hc, hg'] at hg; cases hg

theorem crash_congr {cd cd' : Codec} {p : OsStr} {v : Value} (h : cd.print v.toData = cd'.print v.toData) (hc : CrashWorld cd p v w w1) :
    CrashWorld cd' p v w w1 := by
  unfold CrashWorld at *; rw [← h]; exact hc

theorem dies_left {name : String} {ls : List LayerSpec} {st : Config × World} (h : MacroDies b fm name dv st ls w1) :
    ∀ (calls : List RegCall) (w : World), st = (register b fm calls, w) → (ls.map LayerSpec.name).Nodup → (∀ l ∈ ls, Free b fm calls l.name) →
      ∃ s0, Created (fun s bs => MadeBy b fm name dv w ls s bs ∨ (s = s0 ∧ BegunBy b fm name dv w ls s bs)) w w1 := by
  induction h with
  | outside st specs =>
    rintro calls w rfl _ _
    exact ⟨0, Created.refl _ _⟩
  | @writing st l ls r c cd path w' hr ha hm hi hg hc =>
    rintro calls w rfl hn hfree
    obtain ⟨h1, rfl, cd', h2, h3, h4⟩ := dies_inside (hfree l (by simp)) hr ha hg
    refine ⟨w.locate r.path, (created_crash cd' w w' r.path dv hm (crash_congr (h3 dv).symm hc)).mono ?_⟩
    rintro s bs ⟨rfl, text, e1, e2⟩
    exact Or.inr ⟨rfl, l, by simp, hi, r.path, (chosen_missing h1 hm).1, rfl, cd', text, h2, e1, e2⟩
  | @next st st' l ls w' hst hd ih =>
    rintro calls w rfl hn hfree
    rw [macroLayer_eq] at hst
    cases hst
    have hlist := foldl_distinct b fm name dv [l] calls w (by simp) (by simpa using hfree l (by simp))
    rw [List.foldl_cons, List.foldl_nil] at hlist
    have hcalls : ∃ calls', (mStep b fm name dv (register b fm calls, w) l).1 = register b fm calls' ∧ ∀ m, m ≠ l.name →
        (register b fm calls').getLayer m = (register b fm calls).getLayer m := by
      rcases mStep_config b fm name dv calls w l with h | ⟨p, h⟩
      · exact ⟨calls, h, fun _ _ => rfl⟩
      · exact ⟨_, h, fun m hm => getLayer_append_ne b fm calls l.name m p hm⟩
    obtain ⟨calls', hc1, hget⟩ := hcalls
    rw [List.map_cons, List.nodup_cons] at hn
    have hne : ∀ x ∈ ls, x.name ≠ l.name := fun x hx e => hn.1 (e ▸ List.mem_map_of_mem hx)
    obtain ⟨s0, hcr⟩ := ih calls' (mStep b fm name dv (register b fm calls, w) l).2 (Prod.ext hc1 rfl) hn.2 (fun x hx => by
      unfold Free
      rw [hget _ (hne x hx)]
      exact hfree x (by simp [hx]))
    refine ⟨s0, (hlist.1.mono ?_).trans (hcr.mono ?_)⟩
    · rintro s bs ⟨x, hx, e⟩
      simp at hx; subst hx
      exact Or.inl ⟨x, by simp, e⟩
    · have hs := hlist.1.same
      rintro s bs (⟨x, hx, e1, p, e2, e3, cd, text, e4, e5, e6, e7⟩ | ⟨rfl, x, hx, e1, p, e2, e3, e4⟩)
      · rw [hs.candidates] at e2
        rw [hs.locate] at e3
        rw [hs.room] at e7
        exact Or.inl ⟨x, by simp [hx], e1, p, e2, e3, cd, text, e4, e5, e6, e7⟩
      · rw [hs.candidates] at e2
        rw [hs.locate] at e3
        exact Or.inr ⟨rfl, x, by simp [hx], e1, p, e2, e3, e4⟩

/-- **C130.** A start that is killed at some point (names pairwise distinct) has only created files: nothing that existed has changed. Every file it
created is the first candidate of a layer marked `init: true` and holds the text of the defaults, whole (if the disk takes whole files), except at most
one, which may hold any beginning of it. -/
theorem C130_left (b : Build) (fm : Formats) (w w1 : World) (args : MacroArgs) (hn : (args.layers.map LayerSpec.name).Nodup)
    (h : StartDies b fm w args w1) :
    ∃ dv s0, valueMapMacro args.default = some dv ∧
      Created (fun s bytes => Initialises b fm w args dv s bytes ∨ (s = s0 ∧ Begun b fm w args dv s bytes)) w w1 := by
  obtain ⟨dv, hdv, hd⟩ := h
  obtain ⟨s0, hc⟩ := dies_left hd [.memory "default" dv] w rfl hn (fun l _ => free_start b fm dv l.name)
  exact ⟨dv, s0, hdv, hc⟩

/-- **C130.** It can die before it has done anything, and after all. -/
theorem C130_start_end (b : Build) (fm : Formats) (w w1 : World) (args : MacroArgs) (c : Config) (h : createConfig b fm w args = .ok (c, w1)) :
    StartDies b fm w args w ∧ StartDies b fm w args w1 := by
  obtain ⟨dv, hdv, h2⟩ := createConfig_eq b fm w args
  refine ⟨⟨dv, hdv, .outside _ _⟩, dv, hdv, ?_⟩
  rw [h] at h2
  cases h2
  have key : ∀ (ls : List LayerSpec) (st : Config × World), MacroDies b fm args.fileName dv st ls (ls.foldl (mStep b fm args.fileName dv) st).2 := by
    intro ls
    induction ls with
    | nil => intro st; exact .outside _ _
    | cons l ls ih => intro st; exact .next (macroLayer_eq b fm args.fileName dv st l) (ih _)
  exact key args.layers _

theorem begun_of_initialises {s : Nat} {bs : List UInt8} (h : Initialises b fm w args dv s bs) : Begun b fm w args dv s bs := by
  obtain ⟨l, hl, e1, p, e2, e3, cd, text, e4, e5, e6, -⟩ := h
  exact ⟨l, hl, e1, p, e2, e3, cd, text, e4, e5, e6⟩

theorem begun_same {s : Nat} {bs : List UInt8} (hs : SameEnv w w1) (h : Begun b fm w1 args dv s bs) : Begun b fm w args dv s bs := by
  obtain ⟨l, hl, e1, p, e2, e3, e4⟩ := h
  rw [hs.candidates] at e2
  rw [hs.locate] at e3
  exact ⟨l, hl, e1, p, e2, e3, e4⟩

/-- **C130.** Over any number of starts, each killed at any point or finished: files have only been created, at the first candidates of layers marked
`init: true`, and each holds a beginning (or all) of the text of the defaults. -/
theorem C130_history (b : Build) (fm : Formats) (w w1 : World) (args : MacroArgs) (hn : (args.layers.map LayerSpec.name).Nodup)
    (dv : Value) (hdv : valueMapMacro args.default = some dv) (h : Starts b fm args w w1) : Created (Begun b fm w args dv) w w1 := by
  induction h with
  | none => exact Created.refl _ _
  | killed _ h2 ih =>
    obtain ⟨dv', s0, hdv', hc⟩ := C130_left b fm _ _ args hn h2
    rw [hdv] at hdv'; cases hdv'
    refine ih.trans (hc.mono ?_)
    rintro s bs (h | ⟨-, h⟩)
    · exact begun_same ih.same (begun_of_initialises h)
    · exact begun_same ih.same h
  | finished _ h2 ih =>
    obtain ⟨dv', hdv', hc⟩ := C61_init_safe b fm _ args hn _ _ h2
    rw [hdv] at hdv'; cases hdv'
    exact ih.trans (hc.mono fun s bs h => begun_same ih.same (begun_of_initialises h))

/-- **C130.** Once a start has been finished, no later start writes anything, killed or not. -/
theorem C130_settled (b : Build) (fm : Formats) (w w1 w2 : World) (args : MacroArgs) (hn : (args.layers.map LayerSpec.name).Nodup) (c : Config)
    (h : createConfig b fm w args = .ok (c, w1)) (h2 : Starts b fm args w1 w2) : w2 = w1 := by
  obtain ⟨dv, hdv, e1⟩ := createConfig_eq b fm w args
  rw [h] at e1
  simp only [Outcome.ok.injEq, Prod.mk.injEq] at e1
  have hstuck : ∀ l ∈ args.layers, (register b fm [.memory "default" dv]).getLayer l.name = none → Stuck b fm args.fileName dv w1 l := by
    intro l hl hg
    rw [e1.2]
    exact (foldl_distinct b fm args.fileName dv args.layers [.memory "default" dv] w hn (fun l _ => free_start b fm dv l.name)).2 l hl hg
  have key : ∀ {ls : List LayerSpec} {st : Config × World} {w2 : World}, MacroDies b fm args.fileName dv st ls w2 →
      ∀ (calls : List RegCall) (w : World), st = (register b fm calls, w) → (ls.map LayerSpec.name).Nodup → (∀ l ∈ ls, Free b fm calls l.name) →
      (∀ l ∈ ls, (register b fm calls).getLayer l.name = none → Stuck b fm args.fileName dv w l) → w2 = w := by
    intro ls st w2 hd
    induction hd with
    | outside st specs => rintro calls w rfl _ _ _; rfl
    | @writing st l ls r c cd path w' hr ha hm hi hg hc =>
      rintro calls w rfl hn hfree hs
      obtain ⟨g1, rfl, cd', g2, g3, g4⟩ := dies_inside (hfree l (by simp)) hr ha hg
      rcases hs l (by simp) g4 r.path cd' g1 hi g2 with h | ⟨m, h⟩ | ⟨code, h⟩
      · dsimp only at hm; rw [hm] at h; cases h
      · rcases hc with rfl | ⟨content, ph, hp, -⟩
        · rfl
        · rw [← g3, h] at hp; cases hp
      · rcases hc with rfl | ⟨content, ph, hp, hst⟩
        · rfl
        · rcases writeSteps_inv hst with h' | ⟨done, rest, w1, -, -, ho, -⟩
          · cases h'; rfl
          · unfold World.openTrunc at ho; dsimp only at ho; rw [h] at ho; cases ho
    | @next st st' l ls w' hst hd ih =>
      rintro calls w rfl hn hfree hs
      rw [macroLayer_eq] at hst
      cases hst
      have hw := foldl_stuck b fm args.fileName dv [l] calls w (by simp) (by simpa using hfree l (by simp)) (by simpa using hs l (by simp))
      rw [List.foldl_cons, List.foldl_nil] at hw
      have hcalls : ∃ calls', (mStep b fm args.fileName dv (register b fm calls, w) l).1 = register b fm calls' ∧ ∀ m, m ≠ l.name →
          (register b fm calls').getLayer m = (register b fm calls).getLayer m := by
        rcases mStep_config b fm args.fileName dv calls w l with h | ⟨p, h⟩
        · exact ⟨calls, h, fun _ _ => rfl⟩
        · exact ⟨_, h, fun m hm => getLayer_append_ne b fm calls l.name m p hm⟩
      obtain ⟨calls', hc1, hget⟩ := hcalls
      rw [List.map_cons, List.nodup_cons] at hn
      have hne : ∀ x ∈ ls, x.name ≠ l.name := fun x hx e => hn.1 (e ▸ List.mem_map_of_mem hx)
      refine ih calls' w (Prod.ext hc1 hw) hn.2 (fun x hx => ?_) (fun x hx hg => ?_)
      · unfold Free
        rw [hget _ (hne x hx)]
        exact hfree x (by simp [hx])
      · exact hs x (by simp [hx]) (by rw [← hget _ (hne x hx)]; exact hg)
  induction h2 with
  | none => rfl
  | killed _ h3 ih =>
    subst ih
    obtain ⟨dv', hdv', hd⟩ := h3
    rw [hdv] at hdv'; cases hdv'
    exact key hd [.memory "default" dv] _ rfl hn (fun l _ => free_start b fm dv l.name) hstuck
  | finished _ h3 ih =>
    subst ih
    exact C62_second_run b fm w args hn c _ _ _ h h3

/-- What a layer reads is nothing, the defaults, or a leftover. -/
def ReadsOne (Good : Value → Prop) (L : Except BakuninError Value → Prop) (r : Except BakuninError Value) : Prop :=
  r = .ok (.map []) ∨ (∃ y, r = .ok y ∧ Good y) ∨ (L r ∧ ∀ y, r = .ok y → UniqueKeys y)

theorem uniqueKeys_fileSays {cd : Codec} {bs : List UInt8} {v : Value} (h : fileSays cd bs = .ok v) : UniqueKeys v := by
  unfold fileSays at h
  cases h1 : ofUtf8 bs with
  | none => rw [h1] at h; cases h
  | some s =>
    rw [h1] at h
    cases h2 : cd.parse s with
    | error m => simp only [h2] at h; cases h
    | ok doc =>
      simp only [h2] at h
      cases h3 : visit doc with
      | error m => rw [h3] at h; cases h
      | ok x => rw [h3] at h; cases h; exact uniqueKeys_visit doc v h3

theorem fold_leftover {Good : Value → Prop} {At : Option Head → Path → Prop} {L : Except BakuninError Value → Prop}
    (hgood : ∀ x, Good x → x.isMap = true ∧ UniqueKeys x ∧ ∀ p, ¬ Silent x p → At (view x p) p) (vs : List Value) :
    ∀ v : Value, v.isMap = true → (∀ x ∈ vs, ReadsOne Good L (.ok x)) →
    (∀ p, At (view v p) p ∨ ∃ x, L (.ok x) ∧ x.isMap = true ∧ ¬ Silent x p ∧ view v p = view x p) →
    ∀ p, At (view (vs.foldl Value.merge v) p) p ∨ ∃ x, L (.ok x) ∧ x.isMap = true ∧ ¬ Silent x p ∧ view (vs.foldl Value.merge v) p = view x p := by
  induction vs with
  | nil => intro v _ _ h; exact h
  | cons x vs ih =>
    intro v hvm hx h
    rw [List.foldl_cons]
    refine ih _ (by rw [isMap_merge]; exact hvm) (fun y hy => hx y (by simp [hy])) ?_
    intro p
    rcases hx x (by simp) with hx | ⟨y, hy, hg⟩ | ⟨hl, hu⟩
    · cases hx; rw [C02_merge_empty]; exact h p
    · cases hy
      obtain ⟨hxm, hu, hat⟩ := hgood x hg
      by_cases hs : Silent x p
      · rw [(view_merge' hvm hxm hu p).1 hs]; exact h p
      · left; rw [(view_merge' hvm hxm hu p).2 hs]; exact hat p hs
    · by_cases hxm : x.isMap = true
      · by_cases hs : Silent x p
        · rw [(view_merge' hvm hxm (hu x rfl) p).1 hs]; exact h p
        · exact Or.inr ⟨x, hl, hxm, hs, (view_merge' hvm hxm (hu x rfl) p).2 hs⟩
      · have : v.merge x = v := by
          cases x <;> first | (exact absurd rfl hxm) | (cases v <;> rfl)
        rw [this]; exact h p

/-- What the layers of a finished start read, whatever starts were killed before it. -/
theorem reads_after (hc : NeverStarted b w args) (hs : Starts b fm args w w1) (h : createConfig b fm w1 args = .ok (c, w2))
    (hdv : valueMapMacro args.default = some dv) {Good : Value → Prop} (hgd : Good dv) (hf : ReadsAs b fm dv Good) :
    ∃ calls, c = register b fm calls ∧ (∃ more, firsts (offers b fm calls) = ("default", .memory dv) :: more) ∧
      ∀ e ∈ firsts (offers b fm calls), Proper e.2 ∧ ReadsOne Good (Leftover b fm w args dv w2) (e.2.readValue w2) := by
  have hcr := C130_history b fm w w2 args hc.names dv hdv (.finished hs h)
  have hcr1 := C130_history b fm w w1 args hc.names dv hdv hs
  have hdu : UniqueKeys dv := (C22_macros args.default hc.uniqueKeys [] (by simp)).1 dv hdv
  obtain ⟨c2, w3, dv2, e1, e2, files, e3, e4, e5, -⟩ := C60_order b fm w1 args
  rw [h] at e1; cases e1
  rw [hdv] at e2; cases e2
  have hcand := fun l => hcr1.same.candidates b args.fileName l
  simp only [hcand] at e4 e5
  refine ⟨_, e3, ⟨_, rfl⟩, ?_⟩
  intro e he
  obtain ⟨call, hcall, ho⟩ := List.mem_filterMap.1 (mem_firsts he)
  rcases List.mem_append.1 hcall with hcall | hcall
  · rcases List.mem_append.1 hcall with hcall | hcall
    · simp at hcall; subst hcall; cases ho
      refine ⟨fun w v hv => ?_, Or.inr (Or.inl ⟨dv, rfl, hgd⟩)⟩
      cases hv; exact hdu
    · obtain ⟨x, hx, rfl⟩ := List.mem_map.1 hcall
      obtain ⟨cd, rfl, hcd⟩ := offer_file ho
      refine ⟨fun w v hv => ?_, ?_⟩
      · simp only [Layer.readValue] at hv
        split at hv
        · exact uniqueKeys_textHandler hv
        · cases hv; exact uniqueKeys_map.2 ⟨List.nodup_nil, by simp⟩
      have hxl : x.1 ∈ args.layers := by
        have : x.1 ∈ files.map Prod.fst := List.mem_map_of_mem hx
        rw [e4] at this; exact (List.mem_filter.1 this).1
      have hxp := e5 x hx
      have habs := hc.absent _ hxl _ hxp
      rcases hcr.2 (w.locate x.2) with hsame | ⟨-, bytes, ⟨l, hl, hi, p, hp, hs, fmt, text, hf', hprint, hpre⟩, hfile⟩
      · refine Or.inl (C56_missing _ w2 x.2 ?_)
        have : w2.disk (w2.locate x.2) = w.disk (w.locate x.2) := by rw [hcr.same.locate]; exact hsame
        rw [pathExists_congr this]; exact habs
      · have hext := hc.places _ hxl _ hl _ hxp _ (List.mem_of_mem_head? hp) hs
        have hcd' : cd = fmt := TextFmt.unique (p := x.2) (q := p) hcd hf' hext
        subst hcd'
        have hd' : w2.disk (w2.locate x.2) = .file bytes none none := by rw [hcr.same.locate]; exact hfile
        have hread : (Layer.file (textHandler cd) x.2).readValue w2 = fileSays cd bytes := by
          have hex : w2.pathExists x.2 = true := by unfold World.pathExists; rw [hd']
          simp only [Layer.readValue, hex, if_true]
          rw [handler_says, hd']
        rw [hread]
        by_cases hwhole : bytes = utf8 text
        · subst hwhole
          obtain ⟨doc, v, hparse, hvisit, hgv⟩ := hf cd (hf'.elim (fun h => Or.inl h.2) (fun h => Or.inr h.2)) text hprint
          refine Or.inr (Or.inl ⟨v, ?_, hgv⟩)
          simp only [fileSays, ofUtf8_utf8, hparse, hvisit]
        · refine Or.inr (Or.inr ⟨⟨l, hl, hi, p, hp, cd, text, bytes, hf', hprint, hpre, hwhole, ?_, rfl⟩, fun y hy => uniqueKeys_fileSays hy⟩)
          rw [← hs]; exact hfile
  · cases hpre : args.env with
    | none => rw [hpre] at hcall; cases hcall
    | some pre =>
      rw [hpre] at hcall
      simp at hcall; subst hcall
      have hprop := C08_builtin_proper b fm (.environment "environment" pre) e trivial (by intro n v h; cases h) ho
      cases ho
      obtain ⟨P, hP, hne, hno⟩ := hc.env pre hpre
      refine ⟨hprop, Or.inl (readEnv_nothing hP hne ?_)⟩
      rw [hcr.same.env]; exact hno

/-- For whatever (`Good`) the formats read from what they print of the defaults. -/
theorem next_general (hc : NeverStarted b w args) (hs : Starts b fm args w w1) (h : createConfig b fm w1 args = .ok (c, w2))
    (hdv : valueMapMacro args.default = some dv) {Good : Value → Prop} {At : Option Head → Path → Prop} (hgd : Good dv) (hf : ReadsAs b fm dv Good)
    (hgood : ∀ x, Good x → x.isMap = true ∧ UniqueKeys x ∧ ∀ p, ¬ Silent x p → At (view x p) p)
    (hbase : dv.isMap = true → UniqueKeys dv → ∀ p, At (view (Value.newMap.merge dv) p) p) :
    ∃ v, c.buildValue w2 true = .ok v ∧ UniqueKeys v ∧
      (∀ p, At (view v p) p ∨ ∃ x, Leftover b fm w args dv w2 (.ok x) ∧ x.isMap = true ∧ ¬ Silent x p ∧ view v p = view x p) ∧
      (c.buildValue w2 false = .ok v ∨ ∃ e, Leftover b fm w args dv w2 (.error e) ∧ c.buildValue w2 false = .error e) := by
  obtain ⟨calls, rfl, ⟨more, hmore⟩, hall⟩ := reads_after hc hs h hdv hgd hf
  have hdm : dv.isMap = true := by
    obtain ⟨x, hx, hxm, -⟩ := C19_value_map args.default
    rw [hdv] at hx; cases hx; exact hxm
  have hdu : UniqueKeys dv := (C22_macros args.default hc.uniqueKeys [] (by simp)).1 dv hdv
  have hv : (register b fm calls).buildValue w2 true = .ok ((readables w2 (firsts (offers b fm calls))).foldl Value.merge Value.newMap) := by
    rw [buildValue_is (is_register b fm _), buildList_true]
  refine ⟨_, hv, (C08_map b fm calls w2 true _ hv).2 (fun e he => (hall e he).1), ?_, ?_⟩
  · have hr : readables w2 (firsts (offers b fm calls)) = dv :: readables w2 more := by rw [hmore]; rfl
    have hin : ∀ x ∈ readables w2 more, ReadsOne Good (Leftover b fm w args dv w2) (.ok x) := by
      intro x hx
      obtain ⟨e, he, hr⟩ := List.mem_filterMap.1 hx
      have := (hall e (by rw [hmore]; exact List.mem_cons_of_mem _ he)).2
      cases hrd : e.2.readValue w2 with
      | error m => rw [hrd] at hr; cases hr
      | ok y => rw [hrd] at hr this; cases hr; exact this
    rw [hr, List.foldl_cons]
    exact fold_leftover hgood _ _ (by rw [isMap_merge]; rfl) hin (fun p => Or.inl (hbase hdm hdu p))
  · rw [buildValue_is (is_register b fm _)]
    cases hb : buildList w2 false Value.newMap (firsts (offers b fm calls)) with
    | ok v => exact Or.inl (by rw [(((buildList_false w2 _ _).1 v).1 hb).2])
    | error e =>
      right
      refine ⟨e, ?_, rfl⟩
      obtain ⟨pre, x, post, h1, h2, -⟩ := ((buildList_false w2 _ _).2 e).1 hb
      rcases (hall x (by rw [h1]; simp)).2 with h | ⟨y, h, -⟩ | ⟨h, -⟩
      · rw [h2] at h; cases h
      · rw [h2] at h; cases h
      · rw [h2] at h; exact h

/-- **C130.** A machine on which the program was never started; then starts killed at any points (or finished); then a start that is finished. With errors
skipped the built value shows the defaults at every path, except where a file that holds only a beginning of their text reads as a map that says something
there. Without skipping it is the same value, or what reading such a file gives is the error. -/
theorem C130_next (b : Build) (fm : Formats) (w w1 w2 : World) (args : MacroArgs) (hc : NeverStarted b w args) (hs : Starts b fm args w w1) (c : Config)
    (h : createConfig b fm w1 args = .ok (c, w2)) (dv : Value) (hdv : valueMapMacro args.default = some dv) (hf : FaithfulOn fm dv) :
    ∃ v, c.buildValue w2 true = .ok v ∧ UniqueKeys v ∧
      (∀ p, AlikeAt v dv p ∨ ∃ x, Leftover b fm w args dv w2 (.ok x) ∧ x.isMap = true ∧ ¬ Silent x p ∧ view v p = view x p) ∧
      (c.buildValue w2 false = .ok v ∨ ∃ e, Leftover b fm w args dv w2 (.error e) ∧ c.buildValue w2 false = .error e) := by
  have hdm : dv.isMap = true := by
    obtain ⟨x, hx, hxm, -⟩ := C19_value_map args.default
    rw [hdv] at hx; cases hx; exact hxm
  have hdu : UniqueKeys dv := (C22_macros args.default hc.uniqueKeys [] (by simp)).1 dv hdv
  have hf' : ReadsAs b fm dv (fun y => Alike y dv ∧ UniqueKeys y) := by
    intro fmt hfmt text hp
    obtain ⟨doc, hparse, hpres⟩ := hf fmt (hfmt.elim (fun h => Or.inl h.2) (fun h => Or.inr h.2)) text hp
    obtain ⟨v, hvisit, halike, hvu⟩ := C66_reads dv hdu doc hpres
    exact ⟨doc, v, hparse, hvisit, Alike.symm halike, hvu⟩
  exact next_general hc hs h hdv
    (At := fun o p => (o = none ∧ view dv p = none) ∨ ∃ h h', o = some h ∧ view dv p = some h' ∧ HeadAlike h h') ⟨Alike.refl dv, hdu⟩ hf'
    (fun x hx => ⟨by rw [alike_isMap hx.1]; exact hdm, hx.2, fun p _ => hx.1 p⟩)
    (fun hdm hdu p => alike_of_same (C02_empty_merge dv hdm hdu) p)

/-- **C130.** So if what the proper beginnings of the text read as says nothing but what the defaults say (a format whose texts can be cut only between
entries, or whose cut texts do not parse), every finished start shows the defaults, whatever was killed before. -/
theorem C130_defaults (b : Build) (fm : Formats) (w w1 w2 : World) (args : MacroArgs) (hc : NeverStarted b w args) (hs : Starts b fm args w w1) (c : Config)
    (h : createConfig b fm w1 args = .ok (c, w2)) (dv : Value) (hdv : valueMapMacro args.default = some dv) (hf : FaithfulOn fm dv)
    (hno : ∀ cd, (cd = fm.toml ∨ cd = fm.json) → ∀ text, cd.print dv.toData = .ok text → ∀ bytes, bytes <+: utf8 text → bytes ≠ utf8 text →
      ∀ x, fileSays cd bytes = .ok x → x.isMap = true → ∀ p, ¬ Silent x p → AlikeAt x dv p) :
    ∃ v, c.buildValue w2 true = .ok v ∧ Alike v dv ∧ UniqueKeys v := by
  obtain ⟨v, h1, h2, h3, -⟩ := C130_next b fm w w1 w2 args hc hs c h dv hdv hf
  refine ⟨v, h1, fun p => ?_, h2⟩
  rcases h3 p with h | ⟨x, ⟨l, -, -, p', -, cd, text, bytes, g1, g2, g3, g4, -, g5⟩, hm, hns, he⟩
  · exact h
  · rw [he]
    exact hno cd (g1.elim (fun h => Or.inl h.2.2) (fun h => Or.inr h.2.2)) text g2 bytes g3 g4 x g5.symm hm p hns

theorem dies_before {name : String} (before : List LayerSpec) (hb : ∀ l ∈ before, l.init ≠ some true) (ls : List LayerSpec) :
    ∀ (calls : List RegCall), (∀ l ∈ before, ∀ x ∈ ls, l.name ≠ x.name) →
      (∀ calls', (∀ x ∈ ls, (register b fm calls').getLayer x.name = (register b fm calls).getLayer x.name) →
        MacroDies b fm name dv (register b fm calls', w) ls w1) →
      MacroDies b fm name dv (register b fm calls, w) (before ++ ls) w1 := by
  induction before with
  | nil => intro calls _ h; exact h calls (fun _ _ => rfl)
  | cons l before ih =>
    intro calls hne h
    have hw : (mStep b fm name dv (register b fm calls, w) l).2 = w := by
      unfold mStep
      dsimp only
      cases chosen w (layerCandidates b w name l) with
      | none => rfl
      | some p => exact initLayer_no_init (hb l (by simp))
    rw [List.cons_append]
    refine .next (macroLayer_eq b fm name dv _ l) ?_
    rcases mStep_config b fm name dv calls w l with hc | ⟨p, hc⟩
    · rw [show mStep b fm name dv (register b fm calls, w) l = (register b fm calls, w) from Prod.ext hc hw]
      exact ih (fun x hx => hb x (by simp [hx])) calls (fun x hx => hne x (by simp [hx])) h
    · rw [show mStep b fm name dv (register b fm calls, w) l = (register b fm (calls ++ [.file l.name p]), w) from Prod.ext hc hw]
      refine ih (fun x hx => hb x (by simp [hx])) _ (fun x hx => hne x (by simp [hx])) fun calls' hc' => h calls' fun x hx => ?_
      rw [hc' x hx, getLayer_append_ne b fm calls l.name x.name p (Ne.symm (hne l (by simp) x hx))]

/-- **C130.** And every beginning can be left: for the first layer marked `init: true` (not called `default`), if none of its files exists and the OS would
let the first be created, then for every beginning of the text of the defaults there is a point at which a kill leaves just that. -/
theorem C130_every_beginning (b : Build) (fm : Formats) (w : World) (args : MacroArgs) (hn : (args.layers.map LayerSpec.name).Nodup)
    (dv : Value) (hdv : valueMapMacro args.default = some dv)
    (before after : List LayerSpec) (l : LayerSpec) (hl : args.layers = before ++ l :: after) (hb : ∀ x ∈ before, x.init ≠ some true)
    (hi : l.init = some true) (hname : l.name ≠ "default") (p : OsStr) (hp : (layerCandidates b w args.fileName l).head? = some p)
    (habs : ∀ q ∈ layerCandidates b w args.fileName l, w.pathExists q = false) (hcreate : w.disk (w.locate p) = .absent none)
    (cd : Codec) (hcd : FormatOf b fm p cd) (text : String) (hprint : cd.print dv.toData = .ok text) (bytes : List UInt8) (hbs : bytes <+: utf8 text) :
    ∃ w1, StartDies b fm w args w1 ∧ w1.disk (w1.locate p) = .file bytes none none := by
  obtain ⟨rest, hrest⟩ := hbs
  have ho : w.openTrunc p = .ok (w.put (w.locate p) (.file [] none none)) := by
    unfold World.openTrunc; rw [hcreate]
  refine ⟨(w.put (w.locate p) (.file [] none none)).appendBytes (w.locate p) bytes, ⟨dv, hdv, ?_⟩, ?_⟩
  · rw [hl] at hn ⊢
    have hne : ∀ x ∈ before, ∀ y ∈ l :: after, x.name ≠ y.name := by
      rw [List.map_append, List.nodup_append] at hn
      intro x hx y hy
      exact hn.2.2 _ (List.mem_map_of_mem hx) _ (List.mem_map_of_mem hy)
    refine dies_before (calls := [.memory "default" dv]) before hb _ hne fun calls' hc' => ?_
    have hch := chosen_of_missing hp habs
    have hget : (register b fm calls').getLayer l.name = none := by
      rw [hc' l (by simp), (C11_first_wins b fm _ l.name).1]
      simp [offers, RegCall.offer, List.find?_cons, Ne.symm hname]
    have hnew := getLayer_append_new b fm calls' l.name p cd hget hcd
    rcases layerFinder_spec b w args.fileName l with ⟨r, h1, h2⟩ | ⟨e, h1, h2⟩
    · rw [hch] at h2
      have hrp : p = r.path := Option.some.inj h2
      subst hrp
      rw [← register_append] at hnew
      simp only [RegCall.apply, addFileLayer_eq] at hnew
      have hoff : (RegCall.file l.name r.path).offer b fm = some (l.name, .file (textHandler cd) r.path) := TextFmt.offer hcd l.name
      rw [hoff] at hnew
      refine .writing (r := r) (cd := cd) (path := r.path) h1 (by rw [addFileLayer_eq, hoff]) (habs _ (List.mem_of_mem_head? hp)) hi hnew ?_
      refine Or.inr ⟨text, .writing rest, hprint, .step (.step .refl (.opened ho)) ?_⟩
      rw [← hrest]
      exact .piece
    · rw [h2] at hp; cases hp
  · simp [World.appendBytes, World.put]

/-! ### Examples -/

theorem exNeverStarted : NeverStarted exB1 exFresh exArgs where
  names := by decide
  uniqueKeys := by intro e he; simp [exArgs] at he; subst he; simp [UniqueKeys]
  absent := by decide
  places := by decide
  env := by
    intro pre hpre
    cases hpre
    exact ⟨"APP_", (trimStr_iff _ _).1 (by decide), by decide, exPath_not_app⟩

theorem exTextPresents (s : String) : Presents (.map [("text", .string s)]) (.map [(.str "text", .str s)]) := by
  refine .map _ (List.Perm.refl _) rfl ?_ ?_
  · intro i k x k' d h1 h2
    match i with
    | 0 => cases h1; cases h2; exact KeyText.str "text"
    | _ + 1 => cases h1
  · intro i k x k' d h1 h2
    match i with
    | 0 => cases h1; cases h2; exact .str s
    | _ + 1 => cases h1

theorem exKilledFaithful : FaithfulOn exFormats (.map [("text", .string "dflt")]) := by
  intro fmt hf text hp
  have hf : fmt = exCodec := by rcases hf with h | h <;> exact h
  subst hf
  cases hp
  exact ⟨_, rfl, exTextPresents "dflt"⟩

/-- The first start of the example was killed when it had written `df` of `dflt`. -/
def exCut : World := (exFresh.put 2 (.file [] none none)).appendBytes 2 (utf8 "df")

theorem exCut_dies : StartDies exB1 exFormats exFresh exArgs exCut := by
  refine ⟨_, rfl, .next rfl (.writing rfl rfl rfl rfl rfl ?_)⟩
  exact Or.inr ⟨"dflt", .writing (utf8 "lt"), rfl, .step (.step .refl (.opened rfl)) (.piece (piece := utf8 "df"))⟩

/-- **C130.** A killed first start can leave a beginning of the defaults that no later start repairs: there are a format, defaults that it reads back
faithfully, a machine and a point such that after a kill there every later finished start, however many are made, reports no error and shows a value
that is neither the default nor anything anybody ever wrote in full. -/
theorem C130_wrong_for_ever :
    ∃ (b : Build) (fm : Formats) (w w1 : World) (args : MacroArgs) (dv : Value), NeverStarted b w args ∧ valueMapMacro args.default = some dv ∧
      FaithfulOn fm dv ∧ dv.get "text" = .string "dflt" ∧ StartDies b fm w args w1 ∧
      ∀ w2 w3 c, Starts b fm args w1 w2 → createConfig b fm w2 args = .ok (c, w3) →
        ∃ v, c.buildValue w3 false = .ok v ∧ v.get "text" = .string "df" := by
  refine ⟨exB1, exFormats, exFresh, exCut, exArgs, _, exNeverStarted, rfl, exKilledFaithful, rfl, exCut_dies, ?_⟩
  intro w2 w3 c hs h
  have hrun : createConfig exB1 exFormats exCut exArgs = .ok (_, exCut) := rfl
  have := C130_settled exB1 exFormats exCut exCut w2 exArgs (by decide) _ hrun hs
  subst this
  rw [hrun] at h
  cases h
  exact ⟨_, rfl, rfl⟩

/-- **C130_left**, **C130_history**: of the killed start. -/
example : Created (Begun exB1 exFormats exFresh exArgs (.map [("text", .string "dflt")])) exFresh exCut ∧ exCut.disk 2 = .file (utf8 "df") none none :=
  ⟨C130_history exB1 exFormats exFresh exCut exArgs (by decide) _ rfl (.killed .none exCut_dies), rfl⟩
example : ∃ dv s0, valueMapMacro exArgs.default = some dv ∧
    Created (fun s bytes => Initialises exB1 exFormats exFresh exArgs dv s bytes ∨ (s = s0 ∧ Begun exB1 exFormats exFresh exArgs dv s bytes)) exFresh exCut :=
  C130_left exB1 exFormats exFresh exCut exArgs (by decide) exCut_dies

/-- **C130_start_end**. -/
example : ∃ w1, StartDies exB1 exFormats exFresh exArgs exFresh ∧ StartDies exB1 exFormats exFresh exArgs w1 ∧ w1.disk 2 = .file (utf8 "dflt") none none :=
  ⟨_, (C130_start_end exB1 exFormats exFresh _ exArgs _ rfl).1, (C130_start_end exB1 exFormats exFresh _ exArgs _ rfl).2, rfl⟩

/-- **C130_next**: here the exception is real. -/
example : ∃ c v, createConfig exB1 exFormats exCut exArgs = .ok (c, exCut) ∧ c.buildValue exCut true = .ok v ∧
    Leftover exB1 exFormats exFresh exArgs (.map [("text", .string "dflt")]) exCut (.ok (.map [("text", .string "df")])) ∧
    ∀ p, AlikeAt v (.map [("text", .string "dflt")]) p ∨ ∃ x, Leftover exB1 exFormats exFresh exArgs (.map [("text", .string "dflt")]) exCut (.ok x) ∧
      x.isMap = true ∧ ¬ Silent x p ∧ view v p = view x p := by
  obtain ⟨v, h1, -, h2, -⟩ := C130_next exB1 exFormats exFresh exCut exCut exArgs exNeverStarted (.killed .none exCut_dies) _ rfl _ rfl exKilledFaithful
  refine ⟨_, v, rfl, h1, ?_, h2⟩
  exact ⟨⟨"two", [.path "/b"], some true⟩, by simp [exArgs], rfl, os "/b/f.toml", rfl, exCodec, "dflt", utf8 "df", Or.inl ⟨by decide, rfl, rfl⟩, rfl,
    ⟨utf8 "lt", rfl⟩, by decide, rfl, rfl⟩

/-- A format whose texts end in `!`; other texts do not parse. -/
def exStop : Codec :=
  { parse := fun s => if s.toList.getLast? = some '!' then .ok (.map [(.str "text", .str s)]) else .error "unexpected end",
    print := fun d => match d with | .map [(.str "text", .str s)] => .ok s | _ => .error "unsupported" }
def exStopArgs : MacroArgs := { exArgs with default := [("text", .string "on!")] }

/-- **C130_defaults**: with this format every start that is finished shows the defaults, wherever others were killed; and there are starts that leave
less than the text. -/
example : (∀ w1 w2 c, Starts exB1 ⟨exStop, exStop⟩ exStopArgs exFresh w1 → createConfig exB1 ⟨exStop, exStop⟩ w1 exStopArgs = .ok (c, w2) →
      ∃ v, c.buildValue w2 true = .ok v ∧ Alike v (.map [("text", .string "on!")]) ∧ UniqueKeys v) ∧
    ∃ w1, StartDies exB1 ⟨exStop, exStop⟩ exFresh exStopArgs w1 ∧ w1.disk (w1.locate (os "/b/f.toml")) = .file (utf8 "o") none none := by
  constructor
  · intro w1 w2 c hs h
    refine C130_defaults exB1 ⟨exStop, exStop⟩ exFresh w1 w2 exStopArgs ?_ hs c h _ rfl ?_ ?_
    · exact ⟨by decide, by intro e he; simp [exStopArgs] at he; subst he; simp [UniqueKeys], by decide, by decide, exNeverStarted.env⟩
    · intro fmt hf text hp
      have hf : fmt = exStop := by rcases hf with h | h <;> exact h
      subst hf
      cases hp
      exact ⟨_, rfl, exTextPresents "on!"⟩
    · intro cd hcd text hp bytes hb hne x hx
      exfalso
      have hf : cd = exStop := by rcases hcd with h | h <;> exact h
      subst hf
      cases hp
      have hlen := hb.length_le
      rw [List.prefix_iff_eq_take] at hb
      have h3 : (utf8 "on!").length = 3 := by decide
      rw [h3] at hlen
      have : bytes.length ≠ 3 := by
        intro e
        rw [e] at hb
        exact hne hb
      generalize bytes.length = n at *
      subst hb
      have hcut : ∀ m, fileSays exStop (List.take m (utf8 "on!")) = .ok x → m ≠ 0 ∧ m ≠ 1 ∧ m ≠ 2 := by
        intro m hm
        refine ⟨?_, ?_, ?_⟩ <;> rintro rfl
        · have : fileSays exStop (List.take 0 (utf8 "on!")) = .error (.configLayerError (.parseError "unexpected end")) := rfl
          rw [this] at hm; cases hm
        · have : fileSays exStop (List.take 1 (utf8 "on!")) = .error (.configLayerError (.parseError "unexpected end")) := rfl
          rw [this] at hm; cases hm
        · have : fileSays exStop (List.take 2 (utf8 "on!")) = .error (.configLayerError (.parseError "unexpected end")) := rfl
          rw [this] at hm; cases hm
      have := hcut n hx
      omega
  · exact C130_every_beginning exB1 ⟨exStop, exStop⟩ exFresh exStopArgs (by decide) _ rfl [⟨"one", [.path "/a", .path "/b"], none⟩] []
      ⟨"two", [.path "/b"], some true⟩ rfl (by decide) rfl (by decide) (os "/b/f.toml") rfl (by decide) rfl exStop (Or.inl ⟨by decide, rfl, rfl⟩) "on!" rfl
      (utf8 "o") ⟨utf8 "n!", rfl⟩

end Verif.Props
