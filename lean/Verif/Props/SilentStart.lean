import Verif.Spec.SilentStart
import Verif.Props.MacroLog
import Verif.Lemmas.Serde
/-!
# A program that starts without a warning has loaded everything (C110)
-/
namespace Verif.Props
open Spec

theorem isLog_of_plain {c : LogConfig} {ls : List (String × Layer)} (h : Is (plainConfig c) ls) : IsLog c c.layers := by
  obtain ⟨h1, h2, h3⟩ := h
  have e : c.layers.map Prod.fst = ls.map Prod.fst := by
    rw [← h1, plainConfig, List.map_map]; rfl
  exact ⟨rfl, by rw [e, ← h2]; rfl, by rw [e]; exact h3⟩

/-- A build that skips errors and warns of nothing has read every layer. -/
theorem quiet_build {c : LogConfig} {ls : List (String × Layer)} (h : Is (plainConfig c) ls) {w : World} (hq : warnings (c.buildValue w true).2 = []) :
    (∀ e ∈ ls, ∃ x, e.2.readValue w = .ok x) ∧ ∀ skip, (c.buildValue w skip).1 = (plainConfig c).buildValue w skip := by
  have hl := isLog_of_plain h
  constructor
  · intro e he
    have h0 : (plainConfig c).layers = ls := h.1
    rw [← h0] at he
    obtain ⟨e', he', rfl⟩ := List.mem_map.1 he
    rw [buildLog_is hl, buildRecords_warnings (((buildLogList_spec w true c.layers Value.newMap []).2 _).2 (List.nil_append _)), if_pos rfl, List.filterMap_eq_nil_iff] at hq
    have := hq e' he'
    show ∃ x, e'.2.toLayer.readValue w = .ok x
    cases hr : e'.2.toLayer.readValue w with
    | ok x => exact ⟨x, rfl⟩
    | error x => rw [hr] at this; cases this
  · intro skip
    rw [buildLog_is hl, (buildLogList_spec w skip c.layers Value.newMap []).1, buildValue_is h, ← h.1]; rfl

/-- A successful build is made of what its layers say. -/
theorem madeOf_build {b : Build} {fm : Formats} {calls : List RegCall} {w : World} {skip : Bool} {v : Value} (h : (register b fm calls).buildValue w skip = .ok v)
    (hp : ∀ e ∈ firsts (offers b fm calls), Proper e.2) {xs : List Value}
    (hx : List.Forall₂ (fun (e : String × Layer) x => e.2.readValue w = .ok x) (firsts (offers b fm calls)) xs) : MadeOf v xs := by
  have speaks : ∀ {ls : List (String × Layer)} {ys : List Value}, List.Forall₂ (fun (e : String × Layer) x => e.2.readValue w = .ok x) ls ys → ∀ {p : Path},
      (∀ y ∈ ys, y.isMap = true → Silent y p) → ∀ e ∈ ls, ¬ Speaks w e.2 p := by
    intro ls ys hf p hs e he
    rintro ⟨x, h1, h2, h3⟩
    obtain ⟨y, hy, h4⟩ := forall2_left hf e he
    rw [h1] at h4; cases h4
    exact h3 (hs x hy h2)
  intro p
  constructor
  · intro before x after hsp hm hs hlast
    rw [hsp] at hx
    obtain ⟨ls1, ls2, f1, f2, e12⟩ : ∃ ls1 ls2, List.Forall₂ (fun (e : String × Layer) x => e.2.readValue w = .ok x) ls1 before ∧
        List.Forall₂ (fun (e : String × Layer) x => e.2.readValue w = .ok x) ls2 (x :: after) ∧ firsts (offers b fm calls) = ls1 ++ ls2 :=
      ⟨_, _, List.forall₂_take_append _ _ _ hx, List.forall₂_drop_append _ _ _ hx, (List.take_append_drop _ _).symm⟩
    cases f2 with
    | cons g1 g2 => exact C07_last_speaker b fm calls w skip v h hp p ls1 _ _ x e12 g1 hm hs (speaks g2 hlast)
  · intro hno
    exact C07_nobody_speaks b fm calls w skip v h hp p (speaks hx hno)

theorem fileSays_read {cd : Codec} {w : World} {p : OsStr} {x : Value} (h : (Layer.file (textHandler cd) p).readValue w = .ok x) : FileSays cd w p x := by
  cases hp : w.pathExists p with
  | false =>
    have := C56_missing (textHandler cd) w p hp
    rw [show Layer.newFile (textHandler cd) p = Layer.file (textHandler cd) p from rfl, h] at this
    cases this
    exact .missing hp
  | true =>
    obtain ⟨text, doc, wr, h1, h2, h3⟩ := (C56_content cd w p hp x).1 h
    exact .content text doc wr x h1 h2 h3

theorem forall2_exists {α β : Type} {R : α → β → Prop} {l : List α} (h : ∀ a ∈ l, ∃ b, R a b) : ∃ m, List.Forall₂ R l m := by
  induction l with
  | nil => exact ⟨[], .nil⟩
  | cons a l ih =>
    obtain ⟨b, hb⟩ := h a (by simp)
    obtain ⟨m, hm⟩ := ih fun x hx => h x (by simp [hx])
    exact ⟨b :: m, .cons hb hm⟩

/-- **C110.** Distinct layer names, none of them `default` or, with an environment, `environment`, and a plain file name. If neither `create_config!` nor the build that skips errors warns of anything,
then nothing was left out: both ways of building give the same value, and this is made of the defaults, what the file of every single layer says, in order, and what the environment says. -/
theorem C110_silent (b : Build) (fm : Formats) (w : World) (args : MacroArgs) (hp : PlainName args.fileName) (hn : (args.layers.map LayerSpec.name).Nodup)
    (hd : ∀ l ∈ args.layers, l.name ≠ "default") (he : args.env ≠ none → ∀ l ∈ args.layers, l.name ≠ "environment") (hu : ∀ e ∈ args.default, UniqueKeys e.2)
    (c : LogConfig) (w' : World) (log : List LogRecord) (hc : createConfigLog b fm w args = (.ok (c, w'), log)) (hq : warnings log = [])
    (hb : warnings (c.buildValue w' true).2 = []) :
    ∃ dv v files env, valueMapMacro args.default = some dv ∧ (∀ skip, (c.buildValue w' skip).1 = .ok v) ∧
      List.Forall₂ (LayerSays b fm args.fileName w w') args.layers files ∧ List.Forall₂ (EnvSays w) args.env.toList env ∧
      MadeOf v (dv :: files ++ env) := by
  obtain ⟨c1, w1, dv1, q1, hdv1, q2, -⟩ := C109_quiet b fm w args hp hn hd (by rw [hc]; exact hq)
  rw [hc] at q1; cases q1
  obtain ⟨c2, w2, log2, r1, r2⟩ := C109_same b fm w args
  rw [hc] at r1; cases r1
  obtain ⟨c3, w3, dv, s1, hdv, files, s2, s3, s4, -, -, s5⟩ := C60_order b fm w args
  rw [r2] at s1; cases s1
  obtain rfl : dv = dv1 := Option.some.inj (hdv.symm.trans hdv1)
  clear hdv1
  have hall : files.map Prod.fst = args.layers := by
    rw [s3, List.filter_eq_self]
    intro l hl
    obtain ⟨-, p, hpm, -⟩ := q2 l hl
    cases hcs : layerCandidates b w args.fileName l with
    | nil => rw [hcs] at hpm; cases hpm
    | cons => rfl
  clear s3
  generalize hcalls : ([RegCall.memory "default" dv] ++ files.map (fun x => RegCall.file x.1.name x.2) ++
    (args.env.map fun pre => RegCall.environment "environment" pre).toList) = calls at s2
  -- what is offered
  have hoff : ∀ x ∈ files, ∃ e : String × Layer, (RegCall.file x.1.name x.2).offer b fm = some e := by
    intro x hx
    obtain ⟨f, cd, h⟩ := candidate_named (b := b) (fm := fm) hp (s4 x hx)
    exact ⟨_, (formatOf_textFmt h).offer x.1.name⟩
  obtain ⟨es, hes⟩ := forall2_exists hoff
  have hoffers : offers b fm calls = ("default", Layer.memory dv) :: es ++ (args.env.map fun pre => ("environment", Layer.newEnvironment pre)).toList := by
    rw [← hcalls]
    unfold offers
    rw [List.filterMap_append, List.filterMap_append]
    congr 1
    · show ("default", Layer.memory dv) :: (files.map fun x => RegCall.file x.1.name x.2).filterMap (RegCall.offer b fm) = _
      congr 1
      clear hoff hcalls hall s4 s5
      induction hes with
      | nil => rfl
      | cons h _ ih => rw [List.map_cons, List.filterMap_cons, h]; simp only []; rw [ih]
    · cases args.env <;> rfl
  have hnames : es.map Prod.fst = args.layers.map LayerSpec.name := by
    rw [← hall, List.map_map]
    clear hoff hcalls hall s4 s5 hoffers
    induction hes with
    | nil => rfl
    | cons h _ ih =>
      obtain ⟨cd, rfl, -⟩ := offer_file h
      rw [List.map_cons, List.map_cons, ih]
      rfl
  have hfirsts : firsts (offers b fm calls) = offers b fm calls := by
    apply firsts_of_nodup
    rw [hoffers, List.map_append, List.map_cons, hnames, List.nodup_append, List.nodup_cons]
    refine ⟨⟨?_, hn⟩, ?_, ?_⟩
    · intro hm
      obtain ⟨l, hl, e⟩ := List.mem_map.1 hm
      exact hd l hl e
    · cases args.env <;> simp
    · intro a ha n' hn'
      cases henv : args.env with
      | none => rw [henv] at hn'; cases hn'
      | some pre =>
        rw [henv] at hn'
        simp at hn'; subst hn'
        rcases List.mem_cons.1 ha with rfl | ha
        · exact (by decide : ("default" : String) ≠ "environment")
        · obtain ⟨l, hl, rfl⟩ := List.mem_map.1 ha
          exact he (by rw [henv]; simp) l hl
  have his : Is (plainConfig c) (offers b fm calls) := by rw [s2, ← hfirsts]; exact is_register b fm calls
  obtain ⟨k1, k2⟩ := quiet_build his hb
  obtain ⟨xs, hxs⟩ := forall2_exists k1
  -- every value
  have hproper : ∀ e ∈ firsts (offers b fm calls), Proper e.2 := by
    intro e hem
    rw [hfirsts] at hem
    obtain ⟨call, hcm, ho⟩ := List.mem_filterMap.1 hem
    refine C08_builtin_proper b fm call e ?_ ?_ ho
    · rw [← hcalls] at hcm
      simp only [List.mem_append, List.mem_singleton, List.mem_map, Option.mem_toList, Option.map_eq_some_iff] at hcm
      rcases hcm with (rfl | ⟨_, _, rfl⟩) | ⟨_, _, rfl⟩ <;> trivial
    · rintro n x rfl
      rw [← hcalls] at hcm
      simp only [List.mem_append, List.mem_singleton, List.mem_map, Option.mem_toList, Option.map_eq_some_iff] at hcm
      rcases hcm with (h | ⟨_, _, h⟩) | ⟨_, _, h⟩
      · cases h; exact (C22_macros args.default hu [] (by simp)).1 dv hdv
      · cases h
      · cases h
  have hread : List.Forall₂ (fun (e : String × Layer) x => e.2.readValue w' = .ok x) (firsts (offers b fm calls)) xs := by rw [hfirsts]; exact hxs
  have hv : ∃ v, ∀ skip, (c.buildValue w' skip).1 = .ok v := by
    refine ⟨(readables w' (offers b fm calls)).foldl Value.merge Value.newMap, fun skip => ?_⟩
    rw [k2, buildValue_is his]
    cases skip with
    | true => exact buildList_true _ _ _
    | false =>
      refine ((buildList_false w' _ _).1 _).2 ⟨?_, rfl⟩
      exact k1
  obtain ⟨v, hv⟩ := hv
  have hmade : MadeOf v xs := by
    refine madeOf_build (b := b) (fm := fm) (calls := calls) (w := w') (skip := true) ?_ hproper hread
    rw [← s2, ← k2]; exact hv true
  -- which value is whose
  have hsame : SameEnv w w' := by
    obtain ⟨dv', h1, h2⟩ := createConfig_eq b fm w args
    obtain ⟨paths, w4, g1, g2, -⟩ := foldl_mStep b fm args.fileName dv' args.layers [.memory "default" dv'] w (by intro c hc; simp at hc; subst hc; trivial)
    rw [g1, r2] at h2
    simp only [Outcome.ok.injEq, Prod.mk.injEq] at h2
    rw [h2.2]; exact g2
  rw [hoffers, List.cons_append] at hxs
  cases hxs with
  | cons hx0 hxs =>
    rename_i x0 xs
    cases hx0
    obtain ⟨fv, ev, f1, f2, rfl⟩ : ∃ fv ev, List.Forall₂ (fun (e : String × Layer) x => e.2.readValue w' = .ok x) es fv ∧
        List.Forall₂ (fun (e : String × Layer) x => e.2.readValue w' = .ok x) ((args.env.map fun pre => ("environment", Layer.newEnvironment pre)).toList) ev ∧ xs = fv ++ ev := by
      exact ⟨_, _, List.forall₂_take_append _ _ _ hxs.flip |>.flip, List.forall₂_drop_append _ _ _ hxs.flip |>.flip, (List.take_append_drop _ _).symm⟩
    refine ⟨dv, v, fv, ev, hdv, hv, ?_, ?_, by rw [List.cons_append]; exact hmade⟩
    · have hfiles : ∀ x ∈ files, ∀ cd, TextFmt b fm x.2 cd → ∀ y, (Layer.file (textHandler cd) x.2).readValue w' = .ok y → LayerSays b fm args.fileName w w' x.1 y := by
        intro x hx cd hcd y hy
        have hl : x.1 ∈ args.layers := by rw [← hall]; exact List.mem_map_of_mem hx
        obtain ⟨f, cd', h⟩ := candidate_named (b := b) (fm := fm) hp (s4 x hx)
        obtain rfl : cd' = cd := (formatOf_textFmt h).unique hcd rfl
        refine .mk x.2 (s4 x hx) f cd' h ?_ (s5 x hx) y (fileSays_read hy)
        intro hi
        obtain ⟨-, p, -, g, cd2, hf2, hget, hex⟩ := q2 x.1 hl
        have hpl : (plainConfig c).getLayer x.1.name = some (Layer.file (textHandler cd2) p) := by rw [plain_getLayer, hget]; rfl
        have hme : (x.1.name, Layer.file (textHandler cd') x.2) ∈ offers b fm calls := by
          rw [hoffers]
          obtain ⟨e, he1, he2⟩ := forall2_left hes x hx
          rw [(formatOf_textFmt h).offer] at he2
          cases he2
          simp [he1]
        have hme2 : (plainConfig c).getLayer x.1.name = some (Layer.file (textHandler cd') x.2) := by
          unfold Config.getLayer
          rw [his.1]
          exact hmGet_of_mem' his.2.2 hme
        rw [hpl] at hme2
        have hpp := Option.some.inj hme2
        injection hpp with _ hpp
        rw [← hpp]; exact hex hi
      rw [← hall]
      clear hcalls hall s4 s5 hoffers hoff q2 hnames hmade hxs hread
      induction hes generalizing fv with
      | nil => cases f1; exact .nil
      | cons h _ ih =>
        cases f1 with
        | cons g1 g2 =>
          obtain ⟨cd, rfl, ht⟩ := offer_file h
          exact .cons (hfiles _ (by simp) cd ht _ g1) (ih _ g2 fun x hx => hfiles x (by simp [hx]))
    · clear hcalls hoffers hmade hxs hread
      cases henv : args.env with
      | none => rw [henv] at f2; cases f2; exact .nil
      | some pre =>
        rw [henv] at f2
        cases f2 with
        | cons g1 g2 =>
          cases g2
          refine .cons ?_ .nil
          have hne : trimStr pre ≠ "" := by
            intro h0
            simp only [Layer.newEnvironment, Layer.readValue, Layer.readEnv, h0] at g1
            cases g1
          obtain ⟨y, y1, y2, -, y3, y4⟩ := C54_reads w' pre _ ((trimStr_iff _ _).1 rfl) hne
          simp only [] at g1
          rw [y1] at g1; cases g1
          rw [hsame.env] at y3 y4
          exact ⟨_, (trimStr_iff _ _).1 rfl, hne, y2, fun k before var after s h1 h2 h3 h4 => (y3 k before var after s h1 h2 h3 h4).2, y4⟩

/-! ## Examples -/

/-- A run that finds the file of `one`, creates that of `two` and sees a variable: neither it nor its build warns. -/
theorem exSilent : ∃ c w' log, createConfigLog exB1 exFormats exMacroWorld exArgs = (.ok (c, w'), log) ∧ warnings log = [] ∧ warnings (c.buildValue w' true).2 = [] :=
  ⟨_, _, _, rfl, by decide, by decide⟩

example : ∃ c w' log v dv f1 f2 e, createConfigLog exB1 exFormats exMacroWorld exArgs = (.ok (c, w'), log) ∧ (c.buildValue w' false).1 = .ok v ∧
    MadeOf v [dv, f1, f2, e] ∧ LayerSays exB1 exFormats "f" exMacroWorld w' ⟨"one", [.path "/a", .path "/b"], none⟩ f1 ∧ EnvSays exMacroWorld "APP_" e := by
  obtain ⟨c, w', log, h1, h2, h3⟩ := exSilent
  obtain ⟨dv, v, files, env, -, h4, h5, h6, h7⟩ := C110_silent exB1 exFormats exMacroWorld exArgs (plain_of _ (by decide)) (by decide) (by decide) (by decide)
    (by intro e he; simp [exArgs] at he; subst he; simp [UniqueKeys]) c w' log h1 h2 h3
  cases h5 with
  | cons g1 h5 => cases h5 with
    | cons g2 h5 =>
      cases h5
      cases h6 with
      | cons g3 h6 =>
        cases h6
        exact ⟨c, w', log, v, dv, _, _, _, h1, h4 false, h7, g1, g3⟩

/-- And so the variable wins: at the path `k` the last to speak is the environment. -/
example (v : Value) (f1 f2 e : Value) (hm : MadeOf v [.map [("text", .string "dflt")], f1, f2, e]) (he : EnvSays exMacroWorld "APP_" e) (k : String)
    (hk : view e [.key k] = some (.string "v")) : view v [.key k] = some (.string "v") := by
  obtain ⟨P, -, -, hmap, -⟩ := he
  rw [(hm [.key k]).1 [.map [("text", .string "dflt")], f1, f2] e [] rfl hmap ?_ (by simp), hk]
  rintro ⟨q, j, r, h1, h2, h3⟩
  cases q with
  | nil =>
    cases h1
    simp only [List.nil_append] at h3
    rw [hk] at h3; cases h3
  | cons a q => simp at h1

end Verif.Props
