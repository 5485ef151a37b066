import Verif.Spec.Versions
import Verif.Props.EndToEnd
import Verif.Props.TomlMacro
/-!
# Versions of a program (C105)
-/
namespace Verif.Props
open Spec

/-! ### A run that writes nothing registers what it finds -/

theorem foldl_quiet (b : Build) (fm : Formats) (name : String) (dv : Value) (ls : List LayerSpec) :
    ∀ (calls : List RegCall) (w : World), (∀ c ∈ calls, c.BuiltIn) → (ls.map LayerSpec.name).Nodup → (∀ l ∈ ls, Free b fm calls l.name) →
      (∀ l ∈ ls, (register b fm calls).getLayer l.name = none → Stuck b fm name dv w l) →
      ∃ files : List (LayerSpec × OsStr), ls.foldl (mStep b fm name dv) (register b fm calls, w) =
          (register b fm (calls ++ files.map fun x => .file x.1.name x.2), w) ∧
        files.map Prod.fst = ls.filter (fun l => !(layerCandidates b w name l).isEmpty) ∧
        ∀ x ∈ files, chosen w (layerCandidates b w name x.1) = some x.2 := by
  induction ls with
  | nil => intro calls w _ _ _ _; exact ⟨[], by simp, rfl, by simp⟩
  | cons l ls ih =>
    intro calls w hb hn hfree hstuck
    have hone := foldl_stuck b fm name dv [l] calls w (by simp) (by simpa using hfree l (by simp))
      (by intro x hx; simp at hx; subst hx; exact hstuck _ (by simp))
    simp only [List.foldl_cons, List.foldl_nil] at hone
    rw [List.map_cons, List.nodup_cons] at hn
    have hne : ∀ x ∈ ls, x.name ≠ l.name := fun x hx e => hn.1 (e ▸ List.mem_map_of_mem hx)
    rw [List.foldl_cons]
    rcases mStep_calls b fm name dv calls w l hb with ⟨h1, h2⟩ | ⟨p, w1, h1, h2, h3, h4⟩
    · rw [h2]
      obtain ⟨files, g1, g2, g3⟩ := ih calls w hb hn.2 (fun x hx => hfree x (by simp [hx])) (fun x hx => hstuck x (by simp [hx]))
      refine ⟨files, g1, ?_, g3⟩
      rw [List.filter_cons_of_neg (by rw [chosen_none.1 h1]; simp), g2]
    · rw [h2] at hone ⊢
      dsimp only at hone
      subst hone
      have hb' : ∀ c ∈ calls ++ [.file l.name p], c.BuiltIn := by
        intro c hc
        rcases List.mem_append.1 hc with hc | hc
        · exact hb c hc
        · simp at hc; subst hc; trivial
      obtain ⟨files, g1, g2, g3⟩ := ih (calls ++ [.file l.name p]) w1 hb' hn.2
        (fun x hx => by
          unfold Free
          rw [getLayer_append_ne b fm calls l.name x.name p (hne x hx)]
          exact hfree x (by simp [hx]))
        (fun x hx hg => hstuck x (by simp [hx]) (by rwa [getLayer_append_ne b fm calls l.name x.name p (hne x hx)] at hg))
      refine ⟨(l, p) :: files, ?_, ?_, ?_⟩
      · rw [g1]; simp
      · have hne : layerCandidates b w1 name l ≠ [] := fun e => by rw [chosen_none.2 e] at h1; cases h1
        rw [List.map_cons, g2, List.filter_cons_of_pos (by simpa using hne)]
      · intro x hx
        rcases List.mem_cons.1 hx with rfl | hx
        · exact h1
        · exact g3 x hx

/-- Nothing more would be written by any version. -/
def Settled (b : Build) (fm : Formats) (prog : MacroArgs) (w : World) : Prop :=
  ∀ l ∈ prog.layers, l.name ≠ "default" → ∀ dv, Stuck b fm prog.fileName dv w l

theorem getLayer_default {b : Build} {fm : Formats} {dv : Value} {n : String} (h : (register b fm [.memory "default" dv]).getLayer n = none) :
    n ≠ "default" := by
  rintro rfl
  cases h

theorem getLayer_default_ne (b : Build) (fm : Formats) (dv : Value) {n : String} (h : n ≠ "default") :
    (register b fm [.memory "default" dv]).getLayer n = none := by
  rw [(C11_first_wins b fm _ n).1]
  simp only [offers, List.filterMap_cons, RegCall.offer, List.filterMap_nil, List.find?_cons, List.find?_nil]
  have : ("default" == n) = false := by simpa using Ne.symm h
  rw [this]; rfl

theorem settled_first {b : Build} {fm : Formats} {w : World} {prog : MacroArgs} (hn : (prog.layers.map LayerSpec.name).Nodup)
    {c : Config} {w' : World} (h : createConfig b fm w prog = .ok (c, w')) {dv : Value} (hdv : valueMapMacro prog.default = some dv)
    (hp : Printable b fm dv) : Settled b fm prog w' := by
  obtain ⟨dv', h1, e1⟩ := createConfig_eq b fm w prog
  rw [hdv] at h1; cases h1
  rw [h] at e1
  simp only [Outcome.ok.injEq, Prod.mk.injEq] at e1
  intro l hl hd dv2 p cd k1 k2 k3
  have := (foldl_distinct b fm prog.fileName dv prog.layers [.memory "default" dv] w hn
    (fun l _ => free_start b fm dv l.name)).2 l hl (getLayer_default_ne b fm dv hd)
  rw [← e1.2] at this
  rcases this p cd k1 k2 k3 with h | ⟨m, h⟩ | h
  · exact Or.inl h
  · obtain ⟨text, ht⟩ := hp cd (k3.elim (fun h => Or.inl h.2) (fun h => Or.inr h.2))
    rw [ht] at h; cases h
  · exact Or.inr (Or.inr h)

theorem quiet_run {b : Build} {fm : Formats} {w : World} {prog : MacroArgs} (hn : (prog.layers.map LayerSpec.name).Nodup)
    (hs : Settled b fm prog w) (d : List (String × Value)) :
    ∃ c dv, createConfig b fm w (version prog d) = .ok (c, w) ∧ valueMapMacro d = some dv ∧
      ∃ files : List (LayerSpec × OsStr),
        c = register b fm ([.memory "default" dv] ++ (files.map (fun x => .file x.1.name x.2) ++
          (prog.env.map fun pre => .environment "environment" pre).toList)) ∧
        files.map Prod.fst = prog.layers.filter (fun l => !(layerCandidates b w prog.fileName l).isEmpty) ∧
        ∀ x ∈ files, chosen w (layerCandidates b w prog.fileName x.1) = some x.2 := by
  obtain ⟨dv, h1, h2⟩ := createConfig_eq b fm w (version prog d)
  obtain ⟨files, g1, g2, g3⟩ := foldl_quiet b fm prog.fileName dv prog.layers [.memory "default" dv] w
    (by intro c hc; simp at hc; subst hc; trivial) hn (fun l _ => free_start b fm dv l.name)
    (fun l hl hg => hs l hl (getLayer_default hg) dv)
  have g1' : (version prog d).layers.foldl (mStep b fm (version prog d).fileName dv) (register b fm [.memory "default" dv], w) = _ := g1
  rw [g1'] at h2
  refine ⟨_, dv, h2, h1, files, ?_, g2, g3⟩
  dsimp only
  show _ = _
  rw [← List.append_assoc]
  cases hpre : prog.env with
  | none => simp [version, hpre]
  | some pre => simp only [version, hpre, Option.map_some, Option.toList_some, List.foldl_cons, List.foldl_nil]; rw [register_append]

theorem version_self (prog : MacroArgs) : version prog prog.default = prog := rfl

theorem after_settled {b : Build} {fm : Formats} {w : World} {prog : MacroArgs} (hn : (prog.layers.map LayerSpec.name).Nodup)
    (hs : Settled b fm prog w) (ds : List (List (String × Value))) : afterVersions b fm prog w ds = .ok w := by
  induction ds with
  | nil => rfl
  | cons d ds ih =>
    obtain ⟨c, dv, h, -⟩ := quiet_run hn hs d
    rw [afterVersions, h, Outcome.bind_ok]
    exact ih

/-- In this world every candidate is missing or reads as described by `P`. -/
def HoldsOrMissing (b : Build) (fm : Formats) (w : World) (args : MacroArgs) (P : Value → Prop) : Prop :=
  ∀ l ∈ args.layers, ∀ p ∈ layerCandidates b w args.fileName l, ∀ name e, (RegCall.file name p).offer b fm = some e →
    ∃ y, e.2.readValue w = .ok y ∧ ((w.pathExists p = false ∧ y = .map []) ∨ P y)

theorem holdsOrMissing_first {b : Build} {fm : Formats} {w : World} {args : MacroArgs} (hc : CleanStart b w args) {c : Config} {w' : World}
    (h : createConfig b fm w args = .ok (c, w')) {dv : Value} (hdv : valueMapMacro args.default = some dv) {P : Value → Prop}
    (hf : ReadsAs b fm dv P) : SameEnv w w' ∧ HoldsOrMissing b fm w' args P := by
  obtain ⟨dv', hdv', hcreated⟩ := C61_init_safe b fm w args hc.names c w' h
  rw [hdv] at hdv'; cases hdv'
  refine ⟨hcreated.same, ?_⟩
  intro l hl p hp name e ho
  rw [hcreated.same.candidates] at hp
  obtain ⟨cd, rfl, hcd⟩ := offer_file ho
  have habs := hc.absent _ hl _ hp
  rcases hcreated.2 (w.locate p) with hsame | ⟨-, bytes, ⟨l', hl', hi, q, hq, hs, fmt, text, hfm, hprint, -, hall⟩, hfile⟩
  · have hw : w'.disk (w'.locate p) = w.disk (w.locate p) := by rw [hcreated.same.locate]; exact hsame
    have hmiss : w'.pathExists p = false := by rw [pathExists_congr hw]; exact habs
    exact ⟨.map [], C56_missing _ w' p hmiss, Or.inl ⟨hmiss, rfl⟩⟩
  · have hext := hc.places _ hl _ hl' _ hp _ (List.mem_of_mem_head? hq) hs
    have hcd' : cd = fmt := TextFmt.unique (p := p) (q := q) hcd hfm hext
    subst hcd'
    have hb : bytes = utf8 text := hall (hc.room _)
    subst hb
    obtain ⟨doc, v, hparse, hvisit, hP⟩ := hf cd (hfm.elim (fun h => Or.inl h.2) (fun h => Or.inr h.2)) text hprint
    have hd' : w'.disk (w'.locate p) = .file (utf8 text) none none := by rw [hcreated.same.locate]; exact hfile
    exact ⟨v, (C56_content cd w' p (read_text hd').2 v).2 ⟨text, doc, none, hd', hparse, hvisit⟩, Or.inr hP⟩

theorem fold_overlay {lv dv : Value} (hlm : lv.isMap = true) (hlu : UniqueKeys lv) (hdm : dv.isMap = true) (hdu : UniqueKeys dv) (vs : List Value) :
    ∀ v : Value, UniqueKeys v → (∀ x ∈ vs, x = .map [] ∨ (Alike x dv ∧ UniqueKeys x)) →
    UniqueKeys (vs.foldl Value.merge v) ∧
    (Alike v (lv.merge dv) → Alike (vs.foldl Value.merge v) (lv.merge dv)) ∧
    (Alike v lv → (∃ x ∈ vs, Alike x dv ∧ UniqueKeys x) → Alike (vs.foldl Value.merge v) (lv.merge dv)) ∧
    (Alike v lv → (∀ x ∈ vs, x = .map []) → Alike (vs.foldl Value.merge v) lv) := by
  have hidem : Alike ((lv.merge dv).merge dv) (lv.merge dv) := by
    apply alike_of_same
    intro p
    have hm : (lv.merge dv).isMap = true := by rw [isMap_merge]; exact hlm
    by_cases hs : Silent dv p
    · rw [(C01_merge_overlay _ dv hm hdm hdu p).1 hs]
    · rw [(C01_merge_overlay _ dv hm hdm hdu p).2 hs, (C01_merge_overlay lv dv hlm hdm hdu p).2 hs]
  induction vs with
  | nil =>
    intro v hu _
    exact ⟨hu, id, fun _ ⟨x, hx, _⟩ => absurd hx (by simp), fun h _ => h⟩
  | cons x vs ih =>
    intro v hu hx
    have hxu : UniqueKeys (v.merge x) := by
      rcases hx x (by simp) with rfl | ⟨-, h⟩
      · rw [C02_merge_empty]; exact hu
      · exact uniqueKeys_merge hu h
    obtain ⟨i1, i2, i3, i4⟩ := ih (v.merge x) hxu (fun y hy => hx y (by simp [hy]))
    rw [List.foldl_cons]
    refine ⟨i1, ?_, ?_, ?_⟩
    · intro h
      apply i2
      rcases hx x (by simp) with rfl | ⟨hs, hxu⟩
      · rw [C02_merge_empty]; exact h
      · exact Alike.trans (alike_merge h hs hxu hdu) hidem
    · rintro h ⟨y, hy, hya, hyu⟩
      rcases List.mem_cons.1 hy with rfl | hy'
      · exact i2 (alike_merge h hya hyu hdu)
      · rcases hx x (by simp) with rfl | ⟨hs, hxu⟩
        · exact i3 (by rw [C02_merge_empty]; exact h) ⟨y, hy', hya, hyu⟩
        · exact i2 (alike_merge h hs hxu hdu)
    · intro h hall
      have : x = .map [] := hall x (by simp)
      subst this
      rw [C02_merge_empty] at i4 ⊢
      exact i4 h (fun y hy => hall y (by simp [hy]))

theorem candidate_format {b : Build} {fm : Formats} {w : World} {name : String} {l : LayerSpec} {q : OsStr} (hplain : PlainName name)
    (hqm : q ∈ layerCandidates b w name l) : ∃ cd, TextFmt b fm q cd := by
  unfold layerCandidates at hqm
  obtain ⟨folder, -, hq⟩ := List.mem_flatMap.1 hqm
  obtain ⟨ext, hext, rfl⟩ := List.mem_map.1 hq
  have hx : ext ∈ ["toml", "json"] → pathExtension (candidate folder name ext) = some (os ext) := by
    intro hm
    refine (C50_extension folder name ext ?_ ?_ ?_).2 hplain <;>
      (simp at hm; rcases hm with rfl | rfl <;> decide)
  unfold enabled at hext
  rcases List.mem_append.1 hext with h | h
  · cases hb : b.toml with
    | false => simp [hb] at h
    | true => simp [hb] at h; subst h; exact ⟨_, Or.inl ⟨hx (by simp), hb, rfl⟩⟩
  · cases hb : b.json with
    | false => simp [hb] at h
    | true => simp [hb] at h; subst h; exact ⟨_, Or.inr ⟨hx (by simp), hb, rfl⟩⟩

theorem found_registered {b : Build} {fm : Formats} {w : World} {prog : MacroArgs} {lv : Value} {files : List (LayerSpec × OsStr)}
    (hn : (prog.layers.map LayerSpec.name).Nodup) (hplain : PlainName prog.fileName)
    (h1 : files.map Prod.fst = prog.layers.filter (fun l => !(layerCandidates b w prog.fileName l).isEmpty))
    (h2 : ∀ x ∈ files, chosen w (layerCandidates b w prog.fileName x.1) = some x.2) (rest : List RegCall)
    {l : LayerSpec} (hl : l ∈ prog.layers) (hd : l.name ≠ "default") {p : OsStr} (hp : p ∈ layerCandidates b w prog.fileName l)
    (he : w.pathExists p = true) :
    ∃ q e, q ∈ layerCandidates b w prog.fileName l ∧ w.pathExists q = true ∧ (RegCall.file l.name q).offer b fm = some e ∧
      e ∈ firsts (offers b fm (files.map (fun x => .file x.1.name x.2) ++ rest)) ∧ e.1 = l.name := by
  have hmem : l ∈ files.map Prod.fst := by
    rw [h1]; refine List.mem_filter.2 ⟨hl, ?_⟩
    cases hc : layerCandidates b w prog.fileName l with
    | nil => rw [hc] at hp; cases hp
    | cons => rfl
  obtain ⟨⟨l', q⟩, hx, rfl⟩ := List.mem_map.1 hmem
  have hq := h2 _ hx
  dsimp only at hq hp hl hd ⊢
  have hqe : w.pathExists q = true := by
    cases hqm : w.pathExists q with
    | true => rfl
    | false => rw [(chosen_missing hq hqm).2 p hp] at he; cases he
  have hqm := chosen_mem hq
  have hfmt : ∃ cd, TextFmt b fm q cd := by
    exact candidate_format hplain hqm
  obtain ⟨cd, hcd⟩ := hfmt
  refine ⟨q, _, hqm, hqe, hcd.offer l'.name, ?_, rfl⟩
  have hget : hmGet (firsts (offers b fm (files.map (fun x => .file x.1.name x.2) ++ rest))) l'.name =
      some (.file (textHandler cd) q) := by
    rw [find_firsts]
    unfold offers
    rw [List.filterMap_append, List.find?_append]
    have : (List.filterMap (RegCall.offer b fm) (files.map fun x => RegCall.file x.1.name x.2)).find? (fun e => e.1 == l'.name) =
        some (l'.name, .file (textHandler cd) q) := by
      have hnd : (files.map fun x => x.1.name).Nodup := by
        have : (files.map fun x => x.1.name) = (files.map Prod.fst).map LayerSpec.name := by simp
        rw [this, h1]
        exact List.Nodup.sublist (List.Sublist.map _ List.filter_sublist) hn
      clear h1 h2 hmem
      induction files with
      | nil => cases hx
      | cons f files ih =>
        rw [List.map_cons, List.nodup_cons] at hnd
        rw [List.map_cons, List.filterMap_cons]
        rcases List.mem_cons.1 hx with rfl | hx
        · rw [hcd.offer l'.name]; simp
        · have hne : f.1.name ≠ l'.name := fun e => hnd.1 (e ▸ List.mem_map_of_mem (f := fun x : LayerSpec × OsStr => x.1.name) hx)
          cases hoff : (RegCall.file f.1.name f.2).offer b fm with
          | none => exact ih hx hnd.2
          | some e =>
            obtain ⟨cd', rfl, -⟩ := offer_file hoff
            dsimp only
            rw [List.find?_cons_of_neg (by simpa using hne)]
            exact ih hx hnd.2
    rw [this]; rfl
  exact hmGet_mem hget

/-! ## C105 -/

/-- **C105.** No program that calls `create_config!` (with distinct layer names) ever touches a file that is there: through any number of runs
of any such programs, in any order, every path that existed reads the same, byte for byte. -/
theorem C105_files_stay (b : Build) (fm : Formats) (w w' : World) (progs : List MacroArgs)
    (hn : ∀ args ∈ progs, (args.layers.map LayerSpec.name).Nodup) (h : afterPrograms b fm w progs = .ok w') (p : OsStr)
    (he : w.pathExists p = true) : w'.pathExists p = true ∧ w'.disk (w'.locate p) = w.disk (w.locate p) := by
  induction progs generalizing w with
  | nil => cases h; exact ⟨he, rfl⟩
  | cons args progs ih =>
    rw [afterPrograms, bind_eq_ok] at h
    obtain ⟨⟨c, w1⟩, h1, h2⟩ := h
    have hk := C61_existing_kept b fm w args (hn args (by simp)) c w1 h1 p he
    have he1 : w1.pathExists p = true := by rw [pathExists_congr hk]; exact he
    obtain ⟨g1, g2⟩ := ih w1 (fun a ha => hn a (by simp [ha])) h2 he1
    exact ⟨g1, g2.trans hk⟩

theorem versions_core {b : Build} {fm : Formats} {w : World} {prog : MacroArgs} (hc : CleanStart b w prog)
    (hplain : PlainName prog.fileName) {dv : Value} (hdv : valueMapMacro prog.default = some dv) {fv : Value} (hfm : fv.isMap = true)
    (hfu : UniqueKeys fv) (hf : ReadsAs b fm dv (fun y => Alike y fv ∧ UniqueKeys y))
    (hp : Printable b fm dv) (between : List (List (String × Value))) (last : List (String × Value)) (hlu : ∀ e ∈ last, UniqueKeys e.2)
    {lv : Value} (hlv : valueMapMacro last = some lv) (skip : Bool) :
    ∃ w₁ c v, afterVersions b fm prog w [prog.default] = .ok w₁ ∧ afterVersions b fm prog w (prog.default :: between) = .ok w₁ ∧
      createConfig b fm w₁ (version prog last) = .ok (c, w₁) ∧ c.buildValue w₁ skip = .ok v ∧ UniqueKeys v ∧
      (FindsFile b prog w₁ → ∀ p, (¬ Silent fv p → AlikeAt v fv p) ∧ (Silent fv p → AlikeAt v lv p)) ∧
      (¬ FindsFile b prog w₁ → Alike v lv) := by
  have hlvu : UniqueKeys lv := (C22_macros last hlu [] (by simp)).1 lv hlv
  have isMapOf : ∀ {d : List (String × Value)} {x : Value}, valueMapMacro d = some x → x.isMap = true := by
    intro d x h
    obtain ⟨y, hy, hym, -⟩ := C19_value_map d
    rw [h] at hy; cases hy; exact hym
  obtain ⟨c0, w₁, dv', h0, hdv', -⟩ := C60_order b fm w prog
  rw [hdv] at hdv'; cases hdv'
  obtain ⟨hsame, hold⟩ := holdsOrMissing_first hc h0 hdv hf
  have hset := settled_first hc.names h0 hdv hp
  have hafter : ∀ ds, afterVersions b fm prog w (prog.default :: ds) = .ok w₁ := by
    intro ds
    rw [afterVersions, version_self, h0, Outcome.bind_ok]
    exact after_settled hc.names hset ds
  obtain ⟨c, lv', hrun, hlv', files, e3, e4, e5⟩ := quiet_run hc.names hset last
  rw [hlv] at hlv'; cases hlv'
  -- what the layers read as
  have hrest : ∀ e ∈ offers b fm (files.map (fun x => .file x.1.name x.2) ++
      (prog.env.map fun pre => RegCall.environment "environment" pre).toList),
      ∃ y, e.2.readValue w₁ = .ok y ∧ (y = .map [] ∨ ((Alike y fv ∧ UniqueKeys y) ∧
        ∃ x ∈ files, e.1 = x.1.name ∧ w₁.pathExists x.2 = true)) := by
    intro e he
    obtain ⟨call, hcall, ho⟩ := List.mem_filterMap.1 he
    rcases List.mem_append.1 hcall with hcall | hcall
    · obtain ⟨x, hx, rfl⟩ := List.mem_map.1 hcall
      have hxl : x.1 ∈ prog.layers := by
        have : x.1 ∈ files.map Prod.fst := List.mem_map_of_mem hx
        rw [e4] at this; exact (List.mem_filter.1 this).1
      obtain ⟨y, hy, hyy⟩ := hold x.1 hxl x.2 (chosen_mem (e5 x hx)) _ e ho
      obtain ⟨cd, rfl, -⟩ := offer_file ho
      refine ⟨y, hy, ?_⟩
      cases hex : w₁.pathExists x.2 with
      | true => exact hyy.imp And.right fun h => ⟨h, x, hx, rfl, hex⟩
      | false =>
        left
        have h2 := C56_missing (textHandler cd) w₁ x.2 hex
        have h3 : (Layer.newFile (textHandler cd) x.2).readValue w₁ = .ok y := hy
        rw [h3] at h2; cases h2; rfl
    · cases hpre : prog.env with
      | none => rw [hpre] at hcall; cases hcall
      | some pre =>
        rw [hpre] at hcall
        simp at hcall; subst hcall; cases ho
        obtain ⟨P, hP, hne, hno⟩ := hc.env pre hpre
        refine ⟨.map [], readEnv_nothing hP hne ?_, Or.inl rfl⟩
        rw [hsame.env]; exact hno
  obtain ⟨more, hm1, hm2⟩ := C60_default_first b fm lv (files.map (fun x => .file x.1.name x.2) ++
      (prog.env.map fun pre => RegCall.environment "environment" pre).toList)
  have hmore : ∀ e ∈ more, ∃ y, e.2.readValue w₁ = .ok y ∧ (y = .map [] ∨ ((Alike y fv ∧ UniqueKeys y) ∧
        ∃ x ∈ files, e.1 = x.1.name ∧ w₁.pathExists x.2 = true)) := by
    intro e he
    rw [hm2] at he
    exact hrest e (mem_firsts (List.mem_filter.1 he).1)
  have hbuild : c.buildValue w₁ skip = .ok ((readables w₁ more).foldl Value.merge (Value.newMap.merge lv)) := by
    have hfold : (readables w₁ (firsts (offers b fm ([.memory "default" lv] ++ (files.map (fun x => .file x.1.name x.2) ++
        (prog.env.map fun pre => RegCall.environment "environment" pre).toList))))).foldl Value.merge Value.newMap =
        (readables w₁ more).foldl Value.merge (Value.newMap.merge lv) := by rw [hm1]; rfl
    rw [e3, buildValue_is (is_register b fm _), ← hfold]
    cases skip with
    | true => rw [buildList_true]
    | false =>
      rw [((buildList_false w₁ _ _).1 _).2]
      refine ⟨fun e he => ?_, rfl⟩
      rw [hm1] at he
      rcases List.mem_cons.1 he with rfl | he
      · exact ⟨lv, rfl⟩
      · obtain ⟨y, hy, -⟩ := hmore e he; exact ⟨y, hy⟩
  have hmem : ∀ x ∈ readables w₁ more, ∃ e ∈ more, e.2.readValue w₁ = .ok x := by
    intro x hx
    obtain ⟨e, he, hr⟩ := List.mem_filterMap.1 hx
    obtain ⟨y, hy, -⟩ := hmore e he
    rw [hy] at hr; cases hr; exact ⟨e, he, hy⟩
  have hstart : Alike (Value.newMap.merge lv) lv := alike_of_same (C02_empty_merge lv (isMapOf hlv) hlvu)
  obtain ⟨f1, -, f3, f4⟩ := fold_overlay (isMapOf hlv) hlvu hfm hfu (readables w₁ more) (Value.newMap.merge lv)
    (uniqueKeys_merge (uniqueKeys_map.2 ⟨List.nodup_nil, by simp⟩) hlvu) (by
      intro x hx
      obtain ⟨e, he, hr⟩ := hmem x hx
      obtain ⟨y, hy, hyy⟩ := hmore e he
      rw [hr] at hy; cases hy
      exact hyy.imp id And.left)
  refine ⟨w₁, c, _, hafter [], hafter between, hrun, hbuild, f1, ?_, ?_⟩
  · rintro ⟨l, hl, hld, p, hpc, hpe⟩
    obtain ⟨q, e, hq, hqe, ho, he, hen⟩ := found_registered (fm := fm) (lv := lv) hc.names hplain e4 e5
      (prog.env.map fun pre => RegCall.environment "environment" pre).toList hl hld hpc hpe
    have hem : e ∈ more := by
      rw [hm2]; exact List.mem_filter.2 ⟨he, by simpa [hen] using hld⟩
    obtain ⟨y, hy, hyy⟩ := hold l hl q hq _ e ho
    have hyP : Alike y fv ∧ UniqueKeys y := by
      rcases hyy with ⟨h, -⟩ | h
      · rw [hqe] at h; cases h
      · exact h
    have hall := f3 hstart ⟨y, List.mem_filterMap.2 ⟨e, hem, by rw [hy]; rfl⟩, hyP⟩
    intro s
    have hs := hall s
    constructor
    · intro hsil
      rw [(C01_merge_overlay lv fv (isMapOf hlv) hfm hfu s).2 hsil] at hs; exact hs
    · intro hsil
      rw [(C01_merge_overlay lv fv (isMapOf hlv) hfm hfu s).1 hsil] at hs; exact hs
  · intro hno
    refine f4 hstart ?_
    intro x hx
    obtain ⟨e, he, hr⟩ := hmem x hx
    obtain ⟨y, hy, hyy⟩ := hmore e he
    rw [hr] at hy; cases hy
    rcases hyy with h | ⟨-, f, hf, hfn, hfe⟩
    · exact h
    · exfalso
      refine hno ⟨f.1, ?_, ?_, f.2, chosen_mem (e5 f hf), hfe⟩
      · have : f.1 ∈ files.map Prod.fst := List.mem_map_of_mem hf
        rw [e4] at this; exact (List.mem_filter.1 this).1
      · rw [← hfn]
        rw [hm2] at he
        simpa using (List.mem_filter.1 he).2

/-- **C105.** The first version's defaults stick. From a clean start the first version runs, then any versions (upgrades, downgrades), then a
last one. All of them succeed, the disk stays as the first version left it, and building the last version's value succeeds. If the program
finds its settings file, then wherever the first version's defaults say something, that is what shows (a default changed since then has no
effect), and wherever they say nothing the last version's defaults show (new keys appear). If it finds none, the last version's defaults show. -/
theorem C105_first_defaults_stick (b : Build) (fm : Formats) (w : World) (prog : MacroArgs) (hc : CleanStart b w prog)
    (hplain : PlainName prog.fileName) (dv : Value) (hdv : valueMapMacro prog.default = some dv) (hf : FaithfulOn fm dv)
    (hp : Printable b fm dv) (between : List (List (String × Value))) (last : List (String × Value)) (hlu : ∀ e ∈ last, UniqueKeys e.2)
    (lv : Value) (hlv : valueMapMacro last = some lv) (skip : Bool) :
    ∃ w₁ c v, afterVersions b fm prog w [prog.default] = .ok w₁ ∧ afterVersions b fm prog w (prog.default :: between) = .ok w₁ ∧
      createConfig b fm w₁ (version prog last) = .ok (c, w₁) ∧ c.buildValue w₁ skip = .ok v ∧ UniqueKeys v ∧
      (FindsFile b prog w₁ → ∀ p, (¬ Silent dv p → AlikeAt v dv p) ∧ (Silent dv p → AlikeAt v lv p)) ∧
      (¬ FindsFile b prog w₁ → Alike v lv) := by
  have hdu : UniqueKeys dv := (C22_macros prog.default hc.uniqueKeys [] (by simp)).1 dv hdv
  have hdm : dv.isMap = true := by
    obtain ⟨y, hy, hym, -⟩ := C19_value_map prog.default
    rw [hdv] at hy; cases hy; exact hym
  exact versions_core hc hplain hdv hdm hdu (by
    intro fmt hfmt text hpr
    obtain ⟨doc, hparse, hpres⟩ := hf fmt (hfmt.elim (fun h => Or.inl h.2) (fun h => Or.inr h.2)) text hpr
    obtain ⟨v, hvisit, halike, hvu⟩ := C66_reads dv hdu doc hpres
    exact ⟨doc, v, hparse, hvisit, Alike.symm halike, hvu⟩) hp between last hlu hlv skip

/-- **C105.** With TOML, which drops `None` entries: the same, but where the first version's defaults have no value or `None`, the last version's
defaults show; only inside a list (which is replaced as a whole) an entry that was `None` is missing instead. The first version's defaults
must be something TOML can hold. -/
theorem C105_toml {limit : Nat} (b : Build) (fm : Formats) (hb : b.json = false) (ht : TomlLike limit fm.toml) (w : World) (prog : MacroArgs)
    (hc : CleanStart b w prog) (hplain : PlainName prog.fileName) (dv : Value) (hdv : valueMapMacro prog.default = some dv)
    (hholds : TomlHolds dv) (hdepth : DepthBelow dv limit) (between : List (List (String × Value))) (last : List (String × Value))
    (hlu : ∀ e ∈ last, UniqueKeys e.2) (lv : Value) (hlv : valueMapMacro last = some lv) (skip : Bool) :
    ∃ w₁ c v, afterVersions b fm prog w [prog.default] = .ok w₁ ∧ afterVersions b fm prog w (prog.default :: between) = .ok w₁ ∧
      createConfig b fm w₁ (version prog last) = .ok (c, w₁) ∧ c.buildValue w₁ skip = .ok v ∧ UniqueKeys v ∧
      (FindsFile b prog w₁ → ∀ p, (Unset dv p → AlikeAt v lv p) ∧
        (¬ Unset dv p → (NullEntry dv p → view v p = none) ∧ (¬ NullEntry dv p → AlikeAt v dv p))) ∧
      (¬ FindsFile b prog w₁ → Alike v lv) := by
  have hdu : UniqueKeys dv := (C22_macros prog.default hc.uniqueKeys [] (by simp)).1 dv hdv
  have hdm : dv.isMap = true := by
    obtain ⟨y, hy, hym, -⟩ := C19_value_map prog.default
    rw [hdv] at hy; cases hy; exact hym
  have hom := omitting_prune' hdu
  have hpm : (prune dv).isMap = true := by
    have := (omitting_map hom []).2 (by rw [view_nil]; cases dv <;> first | rfl | cases hdm)
    rw [view_nil] at this
    generalize prune dv = x at this
    cases x <;> first | rfl | cases this
  obtain ⟨w₁, c, v, h1, h2, h3, h4, h5, h6, h7⟩ := versions_core hc hplain hdv hpm (uniqueKeys_prune dv hdu) (by
    intro fmt hfmt text hpr
    have : fmt = fm.toml := by
      rcases hfmt with h | h
      · exact h.2
      · rw [hb] at h; cases h.1
    subst this
    obtain ⟨doc, s, e1, e2, e3, e4⟩ := ht.parses dv text hdu hdepth hpr
    obtain ⟨y, k1, k2, k3⟩ := C66_reads s e4 doc e2
    exact ⟨doc, y, e1, k1, Alike.trans (Alike.symm k2) (alike_of_same (same_of_omitting e3 hom)), k3⟩)
    (by
      intro fmt hfmt
      rcases hfmt with h | h
      · rw [h.2]; exact (ht.prints dv).2 ⟨hdm, hholds⟩
      · rw [hb] at h; cases h.1) between last hlu hlv skip
  refine ⟨w₁, c, v, h1, h2, h3, h4, h5, fun hfind p => ⟨fun hun => ?_, fun hun => ⟨fun hn => ?_, fun hn => ?_⟩⟩, h7⟩
  · exact (h6 hfind p).2 ((unset_iff hom p).1 hun)
  · have := (h6 hfind p).1 (fun hs => hun ((unset_iff hom p).2 hs))
    rw [AlikeAt, (hom p).1 hn] at this
    rcases this with ⟨h, -⟩ | ⟨_, _, -, h, -⟩
    · exact h
    · cases h
  · have := (h6 hfind p).1 (fun hs => hun ((unset_iff hom p).2 hs))
    rw [AlikeAt, (hom p).2 hn] at this
    exact this

/-- **C105.** The first version does leave a settings file: if a layer marked `init: true` has a first candidate that the OS lets it create. -/
theorem C105_leaves_file (b : Build) (fm : Formats) (w : World) (prog : MacroArgs) (hc : CleanStart b w prog) (hplain : PlainName prog.fileName)
    (dv : Value) (hdv : valueMapMacro prog.default = some dv) (hp : Printable b fm dv) (w₁ : World)
    (h : afterVersions b fm prog w [prog.default] = .ok w₁) (l : LayerSpec) (hl : l ∈ prog.layers) (hi : l.init = some true)
    (hd : l.name ≠ "default") (p : OsStr) (hcand : (layerCandidates b w prog.fileName l).head? = some p)
    (hdisk : w.disk (w.locate p) = .absent none) : FindsFile b prog w₁ := by
  rw [afterVersions, version_self, bind_eq_ok] at h
  obtain ⟨⟨c, w2⟩, h0, h2⟩ := h
  cases h2
  have hset := settled_first hc.names h0 hdv hp
  obtain ⟨_, -, hcreated⟩ := C61_init_safe b fm w prog hc.names c w2 h0
  refine ⟨l, hl, hd, ?_⟩
  rw [hcreated.same.candidates]
  by_contra hno
  have hno : ∀ q ∈ layerCandidates b w prog.fileName l, w2.pathExists q = false := by
    intro q hq
    cases hx : w2.pathExists q with
    | false => rfl
    | true => exact absurd ⟨q, hq, hx⟩ hno
  have hpm := List.mem_of_mem_head? hcand
  obtain ⟨cd, hcd⟩ := candidate_format (fm := fm) hplain hpm
  have := hset l hl hd dv p cd (by rw [hcreated.same.candidates]; exact chosen_of_missing hcand hno) hi hcd
  rcases this with h | ⟨m, h⟩ | ⟨code, h⟩
  · rw [hno p hpm] at h; cases h
  · obtain ⟨text, ht⟩ := hp cd (hcd.elim (fun h => Or.inl h.2) (fun h => Or.inr h.2))
    rw [ht] at h; cases h
  · rw [(hcreated.missing (hno p hpm)).2, hdisk] at h; cases h

theorem not_silent_leaf {v x : Value} {k : String} (hx : child v (.key k) = some x) (hm : x.isMap = false) (t : Path) :
    ¬ Silent v (.key k :: t) := by
  rintro ⟨q, k', r, e, h1, h2⟩
  cases q with
  | nil =>
    simp only [List.nil_append, List.cons.injEq, Step.key.injEq] at e
    obtain ⟨rfl, -⟩ := e
    rw [List.nil_append, view_cons, hx] at h2; cases h2
  | cons s q =>
    simp only [List.cons_append, List.cons.injEq] at e
    obtain ⟨rfl, -⟩ := e
    have := h1 [.key k] ⟨q, rfl⟩
    rw [view_cons, hx, Option.bind_some, view_nil] at this
    cases x <;> simp [Value.isMap] at hm <;> cases this

theorem silent_no_key {v : Value} {k : String} (hv : v.isMap = true) (hk : child v (.key k) = none) (t : Path) : Silent v (.key k :: t) := by
  refine ⟨[], k, t, rfl, ?_, ?_⟩
  · intro q' hq
    rw [List.prefix_nil.1 hq, view_nil]
    cases v <;> first | rfl | cases hv
  · rw [List.nil_append, view_cons, hk]; rfl

theorem get_alike_of {v u x : Value} {k : String} (hu : child u (.key k) = some x) (h : ∀ t, AlikeAt v u (.key k :: t)) :
    Alike (v.get k) x := by
  have h0 := h []
  rw [AlikeAt, view_cons, view_cons, hu, Option.bind_some] at h0
  rcases h0 with ⟨-, h0⟩ | ⟨a, a', h0, -⟩
  · cases h0
  · cases hc : child v (.key k) with
    | none => rw [hc] at h0; cases h0
    | some y =>
      rw [get_of_child hc]
      intro t
      have := h t
      rw [AlikeAt, view_cons, view_cons, hu, hc] at this
      exact this

theorem child_of_get {dv : Value} {d : List (String × Value)} (hdv : valueMapMacro d = some dv) {k : String} {x : Value}
    (hx : lastSet d k = some x) : child dv (.key k) = some x := by
  obtain ⟨y, hy, hm, hk, hg⟩ := C19_value_map d
  rw [hdv] at hy; cases hy
  have hmem : k ∈ d.map Prod.fst := by
    unfold lastSet at hx
    cases hf : d.reverse.find? (fun e => e.1 == k) with
    | none => rw [hf] at hx; cases hx
    | some e =>
      have h1 := List.mem_of_find?_eq_some hf
      have h2 := List.find?_some hf
      simp at h2; subst h2
      exact List.mem_map_of_mem (List.mem_reverse.1 h1)
  have := (hk k).2 hmem
  rw [HasKey, view_cons] at this
  cases hc : child dv (.key k) with
  | none => rw [hc] at this; exact absurd rfl this
  | some z =>
    have hz := get_of_child hc
    rw [hg k x hx] at hz; rw [hz]

/-- **C105.** In terms of types: in a program that finds the settings file of its first version, a key for which the first version had a typed
default (that is not itself a map) reads as that old default, whatever the present version's default is; and a key new since then reads as the
present version's default, with or without a settings file. -/
theorem C105_typed (b : Build) (fm : Formats) (w : World) (prog : MacroArgs) (hc : CleanStart b w prog)
    (hplain : PlainName prog.fileName) (dv : Value) (hdv : valueMapMacro prog.default = some dv) (hf : FaithfulOn fm dv)
    (hp : Printable b fm dv) (between : List (List (String × Value))) (last : List (String × Value)) (hlu : ∀ e ∈ last, UniqueKeys e.2)
    (structs : Nat → List (String × Ty)) (hs : ∀ n, Survives (.struct (structs n))) (hsc : ∀ n, Concrete (.struct (structs n)))
    (T : Ty) (hT : Survives T) (hTc : Concrete T) (d : Data) (hd : HasType structs T d) (x : Value) (hx : ser d = .ok x) (key : String)
    (skip : Bool) (w₁ w₂ : World) (c : Config) (hafter : afterVersions b fm prog w (prog.default :: between) = .ok w₁)
    (hrun : createConfig b fm w₁ (version prog last) = .ok (c, w₂))
    (hwhich : (FindsFile b prog w₁ ∧ lastSet prog.default key = some x ∧ x.isMap = false) ∨
      (key ∉ prog.default.map Prod.fst ∧ lastSet last key = some x)) :
    ∃ v, c.buildValue w₂ skip = .ok v ∧ ∃ k0, ∀ k, k0 ≤ k → ∃ d', deAt structs k T (v.get key) = .ok d' ∧ DSame d d' := by
  obtain ⟨lv, hlv, hlm, -⟩ := C19_value_map last
  obtain ⟨u, c', v, -, h1, h2, h3, hu, h4, h5⟩ := C105_first_defaults_stick b fm w prog hc hplain dv hdv hf hp between last hlu lv hlv skip
  rw [hafter] at h1; cases h1
  rw [hrun] at h2; cases h2
  refine ⟨v, h3, ?_⟩
  have hget : Alike (v.get key) x := by
    rcases hwhich with ⟨k1, k2, k3⟩ | ⟨k1, k2⟩
    · have hch := child_of_get hdv k2
      exact get_alike_of hch fun t => (h4 k1 _).1 (not_silent_leaf hch k3 t)
    · have hch := child_of_get hlv k2
      by_cases hfind : FindsFile b prog w₁
      · refine get_alike_of hch fun t => (h4 hfind _).2 (silent_no_key ?_ ?_ t)
        · obtain ⟨y, hy, hym, -⟩ := C19_value_map prog.default
          rw [hdv] at hy; cases hy; exact hym
        · obtain ⟨y, hy, hym, hk, -⟩ := C19_value_map prog.default
          rw [hdv] at hy; cases hy
          have := mt (hk key).1 k1
          rw [HasKey, view_cons] at this
          cases hc : child dv (.key key) with
          | none => rfl
          | some z => rw [hc, Option.bind_some, view_nil] at this; simp at this
      · exact get_alike_of hch fun t => h5 hfind _
  exact typed_alike hs hsc hT hTc hd hx (Alike.symm hget) ((C22_unique_keys v x hu (uniqueKeys_ser d x hx) key 0).2.2.2.2.1)

/-! ### A concrete case of C105: the second version changes the port and adds a key -/

def exVersion2 : List (String × Value) :=
  [("port", .uInteger ⟨9090, by decide⟩), ("hosts", .array [.string "c"]), ("debug", .boolean true)]

theorem exPlain : PlainName exTypedArgs.fileName := ⟨by decide, by decide, by decide, by decide⟩

theorem exPrintable (dv : Value) : Printable exB1 ⟨exSignedCodec, exSignedCodec⟩ dv := by
  intro fmt h
  have : fmt = exSignedCodec := by rcases h with h | h <;> exact h.2
  subst this
  exact ⟨_, rfl⟩

theorem exVersion2_unique : ∀ e ∈ exVersion2, UniqueKeys e.2 := by
  intro e he
  simp [exVersion2] at he
  rcases he with rfl | rfl | rfl <;> simp [UniqueKeys, UniqueKeysList]

/-- After version 1, version 2 and version 1 again, version 2 still reads the port of version 1, and has its new key. -/
example : ∃ w₁ c v, afterVersions exB1 ⟨exSignedCodec, exSignedCodec⟩ exTypedArgs exFresh
      [exTypedArgs.default, exVersion2, exTypedArgs.default] = .ok w₁ ∧
    createConfig exB1 ⟨exSignedCodec, exSignedCodec⟩ w₁ (version exTypedArgs exVersion2) = .ok (c, w₁) ∧ c.buildValue w₁ false = .ok v ∧
    (∃ k d', deAt (fun _ => []) k (.int .u16) (v.get "port") = .ok d' ∧ DSame (.int .u16 ⟨8080, by decide⟩) d') ∧
    ∃ k d', deAt (fun _ => []) k .bool (v.get "debug") = .ok d' ∧ DSame (.bool true) d' := by
  obtain ⟨dv, hdv, -⟩ := C19_value_map exTypedArgs.default
  obtain ⟨lv, hlv, -⟩ := C19_value_map exVersion2
  obtain ⟨w₁, c, v, h0, h1, h2, h3, -⟩ := C105_first_defaults_stick exB1 ⟨exSignedCodec, exSignedCodec⟩ exFresh exTypedArgs exCleanStart exPlain
    dv hdv (exFaithful dv hdv) (exPrintable dv) [exVersion2, exTypedArgs.default] exVersion2 exVersion2_unique lv hlv false
  have hfind := C105_leaves_file exB1 ⟨exSignedCodec, exSignedCodec⟩ exFresh exTypedArgs exCleanStart exPlain dv hdv (exPrintable dv) w₁ h0
    ⟨"two", [.path "/b"], some true⟩ (by simp [exTypedArgs]) rfl (by decide) (os "/b/f.toml") (by decide) rfl
  have typed := fun (T : Ty) (hT : Survives T) (hTc : Concrete T) (d : Data) (hd : HasType (fun _ => []) T d) (x : Value) (hx : ser d = .ok x)
      (key : String) hwhich => C105_typed exB1 ⟨exSignedCodec, exSignedCodec⟩ exFresh exTypedArgs exCleanStart exPlain
    dv hdv (exFaithful dv hdv) (exPrintable dv) [exVersion2, exTypedArgs.default] exVersion2 exVersion2_unique
    (fun _ => []) (fun _ => .struct (by simp) (by simp)) (fun _ => .struct (by simp)) T hT hTc d hd x hx key false w₁ w₁ c h1 h2 hwhich
  refine ⟨w₁, c, v, h1, h2, h3, ?_, ?_⟩
  · obtain ⟨v', hv', k0, h⟩ := typed (.int .u16) (.int ⟨by decide, by decide⟩) (.int _) (.int .u16 ⟨8080, by decide⟩) (.int _ _)
      (.uInteger ⟨8080, by decide⟩) rfl "port" (Or.inl ⟨hfind, rfl, rfl⟩)
    rw [h3] at hv'; cases hv'
    exact ⟨k0, h k0 (Nat.le_refl _)⟩
  · obtain ⟨v', hv', k0, h⟩ := typed .bool .bool (.leaf (by simp)) (.bool true) (.bool _) (.boolean true) rfl "debug"
      (Or.inr ⟨by decide, rfl⟩)
    rw [h3] at hv'; cases hv'
    exact ⟨k0, h k0 (Nat.le_refl _)⟩

/-- **C105.** A version that looks in other places starts from nothing: a version built with another format, or with another file name or
other directories, finds a clean start where the first version has been. (So all of C74 and C105 hold of it anew; what the first version left,
and whatever the user has changed there, is not seen.) -/
theorem C105_other_places (b₁ b₂ : Build) (fm : Formats) (w w₁ : World) (prog₁ prog₂ : MacroArgs) (c : Config)
    (hn : (prog₁.layers.map LayerSpec.name).Nodup) (hc : CleanStart b₂ w prog₂) (h : createConfig b₁ fm w prog₁ = .ok (c, w₁))
    (hplaces : ∀ l ∈ prog₁.layers, ∀ p ∈ layerCandidates b₁ w prog₁.fileName l, ∀ l' ∈ prog₂.layers,
      ∀ q ∈ layerCandidates b₂ w prog₂.fileName l', w.locate p ≠ w.locate q) : CleanStart b₂ w₁ prog₂ := by
  obtain ⟨dv, -, hcr⟩ := C61_init_safe b₁ fm w prog₁ hn c w₁ h
  have hs := hcr.same
  refine ⟨hc.names, hc.uniqueKeys, ?_, ?_, ?_, ?_⟩
  · intro l hl p hp
    rw [hs.candidates] at hp
    have hd : w₁.disk (w₁.locate p) = w.disk (w.locate p) := by
      rw [hs.locate]
      rcases hcr.2 (w.locate p) with h | ⟨-, bytes, ⟨l', hl', -, q, hq, hqs, -⟩, -⟩
      · exact h
      · exact absurd hqs.symm (hplaces l' hl' q (List.mem_of_mem_head? hq) l hl p hp)
    rw [pathExists_congr hd]; exact hc.absent l hl p hp
  · rw [hs.room]; exact hc.room
  · intro l hl l' hl' p hp q hq
    rw [hs.candidates] at hp hq
    rw [hs.locate]
    exact hc.places l hl l' hl' p hp q hq
  · rw [hs.env]; exact hc.env

/-- A JSON build after a TOML build: `/b/f.toml` is there, and the JSON build starts from nothing. -/
def exJson : Build := { toml := false, json := true, overflowChecks := true }
def exLocate (p : OsStr) : Nat :=
  if p = os "/a/f.toml" then 1
  else if p = os "/b/f.toml" then 2
  else if p = os "/a/f.json" then 3
  else if p = os "/b/f.json" then 4
  else 5
def exPlaces : World := { exFresh with locate := exLocate }

example : ∃ c w₁, createConfig exB1 ⟨exSignedCodec, exSignedCodec⟩ exPlaces exTypedArgs = .ok (c, w₁) ∧
    w₁.pathExists (os "/b/f.toml") = true ∧ CleanStart exJson w₁ exTypedArgs := by
  refine ⟨_, _, rfl, rfl, C105_other_places exB1 exJson ⟨exSignedCodec, exSignedCodec⟩ exPlaces _ exTypedArgs exTypedArgs _ (by decide)
    ⟨exCleanStart.names, exCleanStart.uniqueKeys, by decide, fun _ => rfl, by decide, exCleanStart.env⟩ rfl (by decide)⟩

/-! ### A concrete case of `C105_toml`: `proxy` was `None` in version 1 and has a default in version 2 -/

def exOptVersion2 : List (String × Value) := [("proxy", .string "p2"), ("servers", .array [])]

example : ∃ w₁ c v, afterVersions exB1 ⟨exToml, exToml⟩ exOptArgs exFresh [exOptArgs.default, exOptVersion2] = .ok w₁ ∧
    createConfig exB1 ⟨exToml, exToml⟩ w₁ (version exOptArgs exOptVersion2) = .ok (c, w₁) ∧ c.buildValue w₁ false = .ok v ∧
    view v [.key "proxy"] = some (.string "p2") ∧ view v [.key "servers", .idx 0, .key "name"] = some (.string "a") ∧
    view v [.key "servers", .idx 0, .key "proxy"] = none := by
  obtain ⟨lv, hlv, -⟩ := C19_value_map exOptVersion2
  have hlv' := hlv
  cases hlv'
  have hplain : PlainName exOptArgs.fileName := ⟨by decide, by decide, by decide, by decide⟩
  obtain ⟨w₁, c, v, h0, h1, h2, h3, -, h4, -⟩ := C105_toml exB1 ⟨exToml, exToml⟩ rfl (exToml_like 80) exFresh exOptArgs exOpt_clean hplain
    _ exOpt_dv exOpt_holds.2 exOpt_depth [exOptVersion2] exOptVersion2
    (by intro e he; simp [exOptVersion2] at he; rcases he with rfl | rfl <;> simp [UniqueKeys, UniqueKeysList]) _ hlv false
  have hp : Printable exB1 ⟨exToml, exToml⟩ exOptDefaults := by
    intro fmt h
    have : fmt = exToml := by rcases h with h | h <;> exact h.2
    subst this
    exact ((exToml_like 80).prints _).2 exOpt_holds
  have hfind := C105_leaves_file exB1 ⟨exToml, exToml⟩ exFresh exOptArgs exOpt_clean hplain _ exOpt_dv hp w₁ h0
    ⟨"one", [.path "/b"], some true⟩ (by simp [exOptArgs]) rfl (by decide) (os "/b/f.toml") (by decide) rfl
  have string : ∀ {u : Value} {p : Path} {t : String}, AlikeAt v u p → view u p = some (.string t) → view v p = some (.string t) := by
    intro u p t h hu
    rcases h with ⟨-, h⟩ | ⟨a, a', h, h', e⟩
    · rw [hu] at h; cases h
    · rw [hu] at h'; cases h'
      rcases e with rfl | ⟨n, -, e⟩
      · exact h
      · cases e
  have hnot : ∀ k, ¬ Unset exOptDefaults [.key "servers", .idx 0, .key k] := by
    rintro k ⟨q, k', r, e, h5, h6⟩
    rcases q with _ | ⟨a, _ | ⟨a', q⟩⟩
    · cases e; revert h6; decide
    · cases e
    · simp only [List.cons_append, List.cons.injEq] at e
      obtain ⟨rfl, rfl, -⟩ := e
      have := h5 [.key "servers"] ⟨.idx 0 :: q, rfl⟩
      revert this; decide
  refine ⟨w₁, c, v, h1, h2, h3, ?_, ?_, ?_⟩
  · refine string ((h4 hfind [.key "proxy"]).1 ⟨[], "proxy", [], rfl, ?_, Or.inr (by decide)⟩) (by decide)
    intro q hq
    rw [List.prefix_nil] at hq; subst hq; rfl
  · refine string (((h4 hfind _).2 (hnot "name")).2 ?_) (by decide)
    rintro ⟨-, h⟩; revert h; decide
  · exact ((h4 hfind _).2 (hnot "proxy")).1 ⟨⟨[.key "servers", .idx 0], "proxy", rfl⟩, by decide⟩

end Verif.Props
