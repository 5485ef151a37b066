import Verif.Spec.Cascade
import Verif.Spec.Reload
import Verif.Props.Finder
import Verif.Props.Order
import Verif.Props.Program
import Verif.Props.Layers
import Verif.Lemmas.Macro
/-!
# C125: cascading settings files
-/
namespace Verif.Props
open Spec FileFinder

variable {b : Build} {fm : Formats} {w : World} {f : FileFinder} {pre post : List RegCall} {name : FindResult → String} {rs : List FindResult}

/-- The layers of the files at these paths, without their names. -/
def pathLayers (b : Build) (fm : Formats) (ps : List OsStr) : List (String × Layer) := ps.filterMap fun p => (RegCall.file "" p).offer b fm

theorem offer_file_name (b : Build) (fm : Formats) (n : String) (p : OsStr) :
    (RegCall.file n p).offer b fm = ((RegCall.file "" p).offer b fm).map fun e => (n, e.2) := by
  simp only [RegCall.offer]
  split
  · rfl
  · split <;> rfl

theorem buildList_cascade (b : Build) (fm : Formats) (w : World) (skip : Bool) (name : FindResult → String) : ∀ (rs : List FindResult) (v : Value),
    buildList w skip v (offers b fm (rs.map fun r => RegCall.file (name r) r.path)) = buildList w skip v (pathLayers b fm (rs.map (·.path))) := by
  intro rs
  induction rs with
  | nil => intro v; rfl
  | cons r rs ih =>
    intro v
    simp only [offers, pathLayers, List.map_cons, List.filterMap_cons] at ih ⊢
    rw [offer_file_name]
    cases (RegCall.file "" r.path).offer b fm with
    | none => exact ih v
    | some e =>
      simp only [Option.map_some, buildList]
      cases e.2.readValue w <;> simp only [ih]

theorem pathLayers_exists (b : Build) (fm : Formats) (w : World) (skip : Bool) : ∀ (ps : List OsStr) (v : Value),
    buildList w skip v (pathLayers b fm ps) = buildList w skip v (pathLayers b fm (ps.filter fun p => w.pathExists p)) := by
  intro ps
  induction ps with
  | nil => intro v; rfl
  | cons p ps ih =>
    intro v
    simp only [pathLayers, List.filterMap_cons, List.filter_cons] at ih ⊢
    cases hx : w.pathExists p with
    | true =>
      simp only [if_true, List.filterMap_cons]
      cases (RegCall.file "" p).offer b fm with
      | none => exact ih v
      | some e => simp only [buildList]; cases e.2.readValue w <;> simp only [ih]
    | false =>
      simp only [Bool.false_eq_true, if_false]
      cases ho : (RegCall.file "" p).offer b fm with
      | none => exact ih v
      | some e =>
        obtain ⟨cd, rfl, -⟩ := offer_file ho
        have hr : (Layer.file (textHandler cd) p).readValue w = .ok (.map []) := C56_missing _ w p hx
        simp only [buildList, hr, C02_merge_empty, ih]

theorem lists_paths {cs : List (OsStr × String)} (h : Lists b w cs rs) : rs.map (·.path) = cs.map Prod.fst := by
  apply List.ext_getElem?
  intro i
  rw [List.getElem?_map, List.getElem?_map]
  cases hc : cs[i]? with
  | none =>
    have : rs.length ≤ i := by rw [h.1]; exact List.getElem?_eq_none_iff.1 hc
    rw [List.getElem?_eq_none this]; rfl
  | some c =>
    obtain ⟨r, hr, hrep⟩ := h.2 i c hc
    rw [hr, Option.map_some, Option.map_some, hrep.1]

/-- The files listed, as far as they exist, are the candidates that exist. -/
theorem listing_paths (hf : Ready f) (h : Listing b w f rs) :
    ((rs.map (·.path)).filter fun p => w.pathExists p) = ((candidates f).map Prod.fst).filter fun p => w.pathExists p := by
  have hall : ∀ am, findAll b w f am = .ok rs →
      ((rs.map (·.path)).filter fun p => w.pathExists p) = ((candidates f).map Prod.fst).filter fun p => w.pathExists p := by
    intro am h
    rw [lists_paths (findAll_lists hf h), listed, List.filter_map, List.filter_map, List.filter_filter]
    congr 1
    apply List.filter_congr
    intro c _
    cases am <;> simp
  cases h with
  | all am h => exact hall am h
  | allOrFirst h =>
    obtain ⟨h1, h2, -⟩ := C48_find_all_or_first b w f hf
    by_cases hx : ∃ c ∈ candidates f, w.pathExists c.1 = true
    · exact hall false (h1 hx ▸ h)
    · have hno : ∀ c ∈ candidates f, w.pathExists c.1 = false := fun c hc => by
        cases e : w.pathExists c.1
        · rfl
        · exact absurd ⟨c, hc, e⟩ hx
      obtain ⟨c, r, hc, hr, hrep⟩ := h2 hno
      rw [h] at hr; cases hr
      rw [List.filter_eq_nil_iff.2, List.filter_eq_nil_iff.2]
      · intro p hp
        obtain ⟨d, hd, rfl⟩ := List.mem_map.1 hp
        simp [hno d hd]
      · intro p hp
        simp only [List.map_cons, List.map_nil, List.mem_singleton] at hp
        rw [hp, hrep.1]
        simp [hno c (List.mem_of_getElem? hc)]

theorem offers_append' (b : Build) (fm : Formats) (c d : List RegCall) : offers b fm (c ++ d) = offers b fm c ++ offers b fm d := by
  unfold offers; rw [List.filterMap_append]

/-- The build of a cascade in terms of the candidates that exist. -/
theorem cascade_build (hf : Ready f) (h : Listing b w f rs) (hn : ((offers b fm (cascade pre name rs post)).map Prod.fst).Nodup) (skip : Bool) :
    (register b fm (cascade pre name rs post)).buildValue w skip =
      buildList w skip Value.newMap (offers b fm pre ++
        (pathLayers b fm (((candidates f).map Prod.fst).filter fun p => w.pathExists p) ++ offers b fm post)) := by
  rw [buildValue_is (is_register b fm _), firsts_of_nodup hn, cascade, offers_append', offers_append', List.append_assoc, buildList_append, buildList_append]
  congr 1
  funext v
  rw [buildList_append, buildList_append, buildList_cascade, pathLayers_exists, listing_paths hf h]

theorem proper_pathLayers {ps : List OsStr} {e : String × Layer} (he : e ∈ pathLayers b fm ps) : Proper e.2 := by
  obtain ⟨p, -, ho⟩ := List.mem_filterMap.1 he
  exact C08_builtin_proper b fm (.file "" p) e trivial (fun _ _ h => by cases h) ho

theorem proper_cascade {ps : List OsStr} (h : Cascading b fm pre name rs post) :
    ∀ e ∈ offers b fm pre ++ (pathLayers b fm ps ++ offers b fm post), Proper e.2 := by
  have key : ∀ c ∈ pre ++ post, ∀ e, c.offer b fm = some e → Proper e.2 := fun c hc e ho =>
    C08_builtin_proper b fm c e (h.builtIn c hc) (fun n v e => h.memory n v (e ▸ hc)) ho
  intro e he
  rcases List.mem_append.1 he with he | he
  · obtain ⟨c, hc, ho⟩ := List.mem_filterMap.1 he
    exact key c (List.mem_append_left _ hc) e ho
  · rcases List.mem_append.1 he with he | he
    · exact proper_pathLayers he
    · obtain ⟨c, hc, ho⟩ := List.mem_filterMap.1 he
      exact key c (List.mem_append_right _ hc) e ho

theorem offer_named {p : OsStr} {fx : FileExtension} {cd : Codec} (h : FormatNamed b fm p fx cd) (n : String) :
    (RegCall.file n p).offer b fm = some (n, .file (textHandler cd) p) := by
  cases h with
  | toml hb he => simp [RegCall.offer, hb, he]
  | json hb he =>
    have : ¬ (b.toml = true ∧ pathExtension p = some (os "toml")) := by
      rintro ⟨-, h⟩; rw [he] at h; exact absurd h (by decide)
    rw [RegCall.offer, if_neg this, if_pos ⟨hb, he⟩]

theorem named_offer {p : OsStr} {n : String} {e : String × Layer} (h : (RegCall.file n p).offer b fm = some e) :
    ∃ fx cd, FormatNamed b fm p fx cd ∧ e = (n, .file (textHandler cd) p) := by
  obtain ⟨cd, rfl, ⟨h1, h2, rfl⟩ | ⟨h1, h2, rfl⟩⟩ := offer_file h
  · exact ⟨_, _, .toml h2 h1, rfl⟩
  · exact ⟨_, _, .json h2 h1, rfl⟩

/-- The result of a cascade, if it succeeds, as a fold. -/
theorem cascade_fold (hf : Ready f) (h : Listing b w f rs) (hn : ((offers b fm (cascade pre name rs post)).map Prod.fst).Nodup) {skip : Bool} {v : Value}
    (hv : (register b fm (cascade pre name rs post)).buildValue w skip = .ok v) :
    v = (readables w (offers b fm pre ++
        (pathLayers b fm (((candidates f).map Prod.fst).filter fun p => w.pathExists p) ++ offers b fm post))).foldl Value.merge Value.newMap := by
  rw [cascade_build hf h hn] at hv
  cases skip with
  | true => rw [buildList_true] at hv; cases hv; rfl
  | false => exact (((buildList_false w _ _).1 v).1 hv).2

/-- **C125.** Whatever several-file search found the files: at every path the built value shows what the last candidate that exists, has an enabled format and speaks
about the path says, unless a layer registered after the files speaks about it. -/
theorem C125_shows (hf : Ready f) (h : Listing b w f rs) (hc : Cascading b fm pre name rs post) (skip : Bool) (v : Value)
    (hv : (register b fm (cascade pre name rs post)).buildValue w skip = .ok v) (p : Path)
    (before : List (OsStr × String)) (c : OsStr × String) (after : List (OsStr × String)) (hsplit : candidates f = before ++ c :: after)
    (hex : w.pathExists c.1 = true) (fx : FileExtension) (cd : Codec) (hfmt : FormatNamed b fm c.1 fx cd) (x : Option Head)
    (hsays : Says w (.file (textHandler cd) c.1) p x)
    (hafter : ∀ d ∈ after, w.pathExists d.1 = true → ∀ fx' cd', FormatNamed b fm d.1 fx' cd' → ¬ Speaks w (.file (textHandler cd') d.1) p)
    (hpost : ∀ e ∈ offers b fm post, ¬ Speaks w e.2 p) : view v p = x := by
  obtain ⟨y, hy, hm, hs, rfl⟩ := hsays
  rw [cascade_fold hf h hc.names hv]
  have hl : pathLayers b fm (((candidates f).map Prod.fst).filter fun p => w.pathExists p) =
      pathLayers b fm ((before.map Prod.fst).filter fun p => w.pathExists p) ++ ("", .file (textHandler cd) c.1) ::
        pathLayers b fm ((after.map Prod.fst).filter fun p => w.pathExists p) := by
    rw [hsplit, List.map_append, List.map_cons, List.filter_append, List.filter_cons, if_pos hex]
    simp only [pathLayers, List.filterMap_append, List.filterMap_cons, offer_named hfmt]
  refine (build_speaks (proper_cascade hc) p).1 (offers b fm pre ++ pathLayers b fm ((before.map Prod.fst).filter fun p => w.pathExists p))
    ("", .file (textHandler cd) c.1) (pathLayers b fm ((after.map Prod.fst).filter fun p => w.pathExists p) ++ offers b fm post) y ?_ hy hm hs ?_
  · rw [hl]; simp
  · intro a ha
    rcases List.mem_append.1 ha with ha | ha
    · obtain ⟨q, hq, ho⟩ := List.mem_filterMap.1 ha
      obtain ⟨hq, hqx⟩ := List.mem_filter.1 hq
      obtain ⟨d, hd, rfl⟩ := List.mem_map.1 hq
      obtain ⟨fx', cd', hf', rfl⟩ := named_offer ho
      exact hafter d hd hqx fx' cd' hf'
    · exact hpost a ha

/-- **C125.** Where no existing candidate of an enabled format and no later layer speaks, the built value shows what the layers registered before the files build. -/
theorem C125_else (hf : Ready f) (h : Listing b w f rs) (hc : Cascading b fm pre name rs post) (skip : Bool) (v v0 : Value)
    (hv : (register b fm (cascade pre name rs post)).buildValue w skip = .ok v) (hv0 : (register b fm pre).buildValue w skip = .ok v0) (p : Path)
    (hfiles : ∀ d ∈ candidates f, w.pathExists d.1 = true → ∀ fx' cd', FormatNamed b fm d.1 fx' cd' → ¬ Speaks w (.file (textHandler cd') d.1) p)
    (hpost : ∀ e ∈ offers b fm post, ¬ Speaks w e.2 p) : view v p = view v0 p := by
  have hno : ∀ e ∈ pathLayers b fm (((candidates f).map Prod.fst).filter fun p => w.pathExists p) ++ offers b fm post, ¬ Speaks w e.2 p := by
    intro a ha
    rcases List.mem_append.1 ha with ha | ha
    · obtain ⟨q, hq, ho⟩ := List.mem_filterMap.1 ha
      obtain ⟨hq, hqx⟩ := List.mem_filter.1 hq
      obtain ⟨d, hd, rfl⟩ := List.mem_map.1 hq
      obtain ⟨fx', cd', hf', rfl⟩ := named_offer ho
      exact hfiles d hd hqx fx' cd' hf'
    · exact hpost a ha
  have hnd : ((offers b fm pre).map Prod.fst).Nodup := by
    have := hc.names
    rw [cascade, offers_append', offers_append', List.append_assoc, List.map_append] at this
    exact (List.nodup_append.1 this).1
  have hp := proper_cascade (ps := ((candidates f).map Prod.fst).filter fun p => w.pathExists p) hc
  have hpp : ∀ e ∈ firsts (offers b fm pre), Proper e.2 := by
    rw [firsts_of_nodup hnd]; exact fun e he => hp e (List.mem_append_left _ he)
  rw [cascade_fold hf h hc.names hv]
  rcases C07_cases w (offers b fm pre) p with hn | ⟨bf, e, af, x, hls, hx, hm, hs, hlast⟩
  · rw [C07_nobody_speaks b fm pre w skip v0 hv0 hpp p (by rw [firsts_of_nodup hnd]; exact hn)]
    rw [(build_speaks hp p).2 (fun e he => (List.mem_append.1 he).elim (hn e) (hno e))]
    cases p with
    | nil => rfl
    | cons s p => cases s <;> rfl
  · rw [C07_last_speaker b fm pre w skip v0 hv0 hpp p bf e af x (by rw [firsts_of_nodup hnd]; exact hls) hx hm hs hlast]
    refine (build_speaks hp p).1 bf e (af ++ (pathLayers b fm (((candidates f).map Prod.fst).filter fun p => w.pathExists p) ++ offers b fm post)) x ?_ hx hm hs ?_
    · rw [hls]; simp
    · exact fun a ha => (List.mem_append.1 ha).elim (hlast a) (hno a)

/-- **C125.** It makes no difference to what is built (nor to the error) which of the searches listed the files and under which names they were registered: files that do
not exist have no influence. -/
theorem C125_same (hf : Ready f) (h : Listing b w f rs) (rs' : List FindResult) (h' : Listing b w f rs') (name' : FindResult → String)
    (hn : ((offers b fm (cascade pre name rs post)).map Prod.fst).Nodup) (hn' : ((offers b fm (cascade pre name' rs' post)).map Prod.fst).Nodup) (skip : Bool) :
    (register b fm (cascade pre name rs post)).buildValue w skip = (register b fm (cascade pre name' rs' post)).buildValue w skip := by
  rw [cascade_build hf h hn, cascade_build hf h' hn']

/-- **C125.** If `find_all` found nothing, registering what the searches that allow missing files list builds the same as registering no file at all. -/
theorem C125_none (hf : Ready f) (hnone : findAll b w f false = .err (.fileFinderError .noFilesFound)) (h : Listing b w f rs)
    (hn : ((offers b fm (cascade pre name rs post)).map Prod.fst).Nodup) (skip : Bool) :
    (register b fm (cascade pre name rs post)).buildValue w skip = (register b fm (pre ++ post)).buildValue w skip := by
  have hl : listed w false f = [] := by
    by_cases hs : (listed w false f).length < 65536
    · by_cases e : listed w false f = []
      · exact e
      · obtain ⟨rs', h', -⟩ := (C47_find_all b w f false hf hs).1 e
        rw [hnone] at h'; cases h'
    · obtain ⟨h1, h2⟩ := C47_index_overflow b w f false hf (by omega)
      cases hb : b.overflowChecks
      · obtain ⟨rs', e, -⟩ := h2 hb
        rw [hnone] at e; cases e
      · rw [h1 hb] at hnone; cases hnone
  have he : ((candidates f).map Prod.fst).filter (fun p => w.pathExists p) = [] := by
    rw [List.filter_map]
    have : (candidates f).filter ((fun p => w.pathExists p) ∘ Prod.fst) = listed w false f := by
      unfold listed; apply List.filter_congr; intro c _; simp
    rw [this, hl]; rfl
  have hnd : ((offers b fm (pre ++ post)).map Prod.fst).Nodup := by
    rw [cascade, offers_append', offers_append', List.map_append, List.map_append] at hn
    rw [offers_append', List.map_append]
    exact List.Nodup.sublist (List.Sublist.append (List.sublist_append_left _ _) (List.Sublist.refl _)) hn
  rw [cascade_build hf h hn, he, buildValue_is (is_register b fm _), firsts_of_nodup hnd, offers_append']
  rfl

/-- **C125.** Without `skip_on_error` the first existing candidate of an enabled format that cannot be read decides: the build fails with its error, provided that the layers
before the files can be read. With `skip_on_error` nothing fails. -/
theorem C125_error (hf : Ready f) (h : Listing b w f rs) (hn : ((offers b fm (cascade pre name rs post)).map Prod.fst).Nodup)
    (hpre : ∀ e ∈ offers b fm pre, ∃ y, e.2.readValue w = .ok y)
    (before : List (OsStr × String)) (c : OsStr × String) (after : List (OsStr × String)) (hsplit : candidates f = before ++ c :: after)
    (fx : FileExtension) (cd : Codec) (hfmt : FormatNamed b fm c.1 fx cd) (x : BakuninError)
    (hex : w.pathExists c.1 = true) (hbad : (Layer.file (textHandler cd) c.1).readValue w = .error x)
    (hok : ∀ d ∈ before, w.pathExists d.1 = true → ∀ fx' cd', FormatNamed b fm d.1 fx' cd' → ∃ y, (Layer.file (textHandler cd') d.1).readValue w = .ok y) :
    (register b fm (cascade pre name rs post)).buildValue w false = .error x ∧
    ∃ v, (register b fm (cascade pre name rs post)).buildValue w true = .ok v := by
  rw [cascade_build hf h hn, cascade_build hf h hn]
  refine ⟨((buildList_false w _ _).2 x).2 ⟨offers b fm pre ++ pathLayers b fm ((before.map Prod.fst).filter fun p => w.pathExists p),
    ("", .file (textHandler cd) c.1), pathLayers b fm ((after.map Prod.fst).filter fun p => w.pathExists p) ++ offers b fm post, ?_, hbad, ?_⟩, _, buildList_true w _ _⟩
  · rw [hsplit, List.map_append, List.map_cons, List.filter_append, List.filter_cons, if_pos hex]
    simp only [pathLayers, List.filterMap_append, List.filterMap_cons, offer_named hfmt, List.append_assoc, List.cons_append]
  · intro a ha
    rcases List.mem_append.1 ha with ha | ha
    · exact hpre a ha
    · obtain ⟨q, hq, ho⟩ := List.mem_filterMap.1 ha
      obtain ⟨hq, hqx⟩ := List.mem_filter.1 hq
      obtain ⟨d, hd, rfl⟩ := List.mem_map.1 hq
      obtain ⟨fx', cd', hf', rfl⟩ := named_offer ho
      exact hok d hd hqx fx' cd' hf'

/-! ## Examples: `/a/conf.toml` and `/b/conf.json` exist, `/a/conf.json` and `/b/conf.toml` do not -/

def exCasWorld (second : String) : World where
  locate p := if p = os "/a/conf.toml" then 1 else if p = os "/b/conf.json" then 2 else 0
  disk n := if n = 1 then .file (utf8 "one") none none else if n = 2 then .file (utf8 second) none none else .absent none
  room _ := none
  env := []
  baseDirs := none
  cwd := none

def exCasPre : List RegCall := [.memory "d" (.map [("k", .string "old"), ("text", .string "dflt")])]
def exCasPost : List RegCall := [.environment "e" "APP_"]
/-- The path's own text as name. -/
def exCasName (r : FindResult) : String := (osToStr r.path).getD ""

theorem exCas_all (s : String) (hs : s = "two" ∨ s = "bad") (am : Bool) : ∃ rs, findAll exBuild (exCasWorld s) exFinder am = .ok rs ∧
    Cascading exBuild exFormats exCasPre exCasName rs exCasPost := by
  have hb : ∀ c ∈ exCasPre ++ exCasPost, c.BuiltIn := by
    intro c hc
    simp only [exCasPre, exCasPost, List.cons_append, List.nil_append, List.mem_cons, List.not_mem_nil, or_false] at hc
    rcases hc with rfl | rfl <;> trivial
  have hm : ∀ n x, RegCall.memory n x ∈ exCasPre ++ exCasPost → UniqueKeys x := by
    intro n x hx
    simp only [exCasPre, exCasPost, List.cons_append, List.nil_append, List.mem_cons, List.not_mem_nil, or_false] at hx
    rcases hx with h | h
    · cases h; simp [UniqueKeys, UniqueKeysMap, UniqueKeysEntry]
    · cases h
  rcases hs with rfl | rfl <;> cases am
  · exact ⟨_, rfl, hb, hm, by decide⟩
  · exact ⟨_, rfl, hb, hm, by decide⟩
  · exact ⟨_, rfl, hb, hm, by decide⟩
  · exact ⟨_, rfl, hb, hm, by decide⟩

theorem exCas_split : candidates exFinder = [(os "/a/conf.toml", "toml"), (os "/a/conf.json", "json"), (os "/b/conf.toml", "toml")] ++
    (os "/b/conf.json", "json") :: [] := by decide

theorem exCas_env (s : String) (k : String) : ∀ e ∈ offers exBuild exFormats exCasPost, ¬ Speaks (exCasWorld s) e.2 [.key k] := by
  intro e he
  simp only [offers, exCasPost, List.filterMap_cons, RegCall.offer, List.filterMap_nil, List.mem_singleton] at he
  subst he
  rintro ⟨x, hx, -, hs⟩
  cases hx
  exact hs ⟨[], k, [], rfl, by simp [List.prefix_nil, view, head], rfl⟩

/-- The last file that speaks wins. -/
example (am skip : Bool) : ∃ rs v, findAll exBuild (exCasWorld "two") exFinder am = .ok rs ∧
    (register exBuild exFormats (cascade exCasPre exCasName rs exCasPost)).buildValue (exCasWorld "two") skip = .ok v ∧
    view v [.key "text"] = some (.string "two") := by
  obtain ⟨rs, h, hc⟩ := exCas_all "two" (.inl rfl) am
  have hv : ∃ v, (register exBuild exFormats (cascade exCasPre exCasName rs exCasPost)).buildValue (exCasWorld "two") skip = .ok v := by
    rw [cascade_build exFinder_ready (.all am h) hc.names]
    cases skip <;> exact ⟨_, rfl⟩
  obtain ⟨v, hv⟩ := hv
  refine ⟨rs, v, h, hv, C125_shows exFinder_ready (.all am h) hc skip v hv [.key "text"] _ _ [] exCas_split rfl .json exCodec (.json rfl (by decide)) _
    ⟨.map [("text", .string "two")], rfl, rfl, ?_, rfl⟩ (by simp) (exCas_env "two" "text")⟩
  rintro ⟨q, k, r, h1, h2, h3⟩
  cases q with
  | nil => cases h1; cases h3
  | cons s q => simp at h1

/-- A setting of which no file speaks. -/
example (am skip : Bool) : ∃ rs v, findAll exBuild (exCasWorld "two") exFinder am = .ok rs ∧
    (register exBuild exFormats (cascade exCasPre exCasName rs exCasPost)).buildValue (exCasWorld "two") skip = .ok v ∧
    view v [.key "k"] = some (.string "old") := by
  obtain ⟨rs, h, hc⟩ := exCas_all "two" (.inl rfl) am
  have hv : ∃ v, (register exBuild exFormats (cascade exCasPre exCasName rs exCasPost)).buildValue (exCasWorld "two") skip = .ok v := by
    rw [cascade_build exFinder_ready (.all am h) hc.names]
    cases skip <;> exact ⟨_, rfl⟩
  obtain ⟨v, hv⟩ := hv
  refine ⟨rs, v, h, hv, ?_⟩
  have sil : ∀ t, Silent (.map [("text", .string t)]) [.key "k"] := fun t => ⟨[], "k", [], rfl, by simp [List.prefix_nil, view, head], rfl⟩
  rw [C125_else exFinder_ready (.all am h) hc skip v (.map [("k", .string "old"), ("text", .string "dflt")]) hv (by cases skip <;> rfl) [.key "k"] ?_ (exCas_env "two" "k")]
  · rfl
  · intro d hd hx fx cd hf
    have hcd : cd = exCodec := by cases hf <;> rfl
    subst hcd
    rw [exCas_split] at hd
    simp only [List.cons_append, List.nil_append, List.mem_cons, List.not_mem_nil, or_false] at hd
    rintro ⟨x, hr, -, hs⟩
    rcases hd with rfl | rfl | rfl | rfl
    · cases hr; exact hs (sil _)
    · cases hx
    · cases hx
    · cases hr; exact hs (sil _)

/-- Whether missing files are listed makes no difference. -/
example (skip : Bool) : ∃ rs rs', findAll exBuild (exCasWorld "two") exFinder true = .ok rs ∧ findAll exBuild (exCasWorld "two") exFinder false = .ok rs' ∧
    rs.length = 4 ∧ rs'.length = 2 ∧
    (register exBuild exFormats (cascade exCasPre exCasName rs exCasPost)).buildValue (exCasWorld "two") skip =
    (register exBuild exFormats (cascade exCasPre exCasName rs' exCasPost)).buildValue (exCasWorld "two") skip :=
  ⟨_, _, rfl, rfl, rfl, rfl, C125_same exFinder_ready (.all true rfl) _ (.all false rfl) exCasName (by decide) (by decide) skip⟩

/-- No file at all. -/
example (skip : Bool) : ∃ rs, findAllOrFirst exBuild exDisk exFinder = .ok rs ∧ rs.length = 1 ∧
    (register exBuild exFormats (cascade exCasPre exCasName rs exCasPost)).buildValue exDisk skip =
    (register exBuild exFormats (exCasPre ++ exCasPost)).buildValue exDisk skip :=
  ⟨_, rfl, rfl, C125_none exFinder_ready rfl (.allOrFirst rfl) (by decide) skip⟩

/-- The second file is damaged. -/
example (am : Bool) : ∃ rs, findAll exBuild (exCasWorld "bad") exFinder am = .ok rs ∧
    (register exBuild exFormats (cascade exCasPre exCasName rs exCasPost)).buildValue (exCasWorld "bad") false = .error (.configLayerError (.parseError "syntax")) := by
  obtain ⟨rs, h, hc⟩ := exCas_all "bad" (.inr rfl) am
  refine ⟨rs, h, (C125_error exFinder_ready (.all am h) hc.names ?_ _ _ [] exCas_split .json exCodec (.json rfl (by decide)) _ rfl rfl ?_).1⟩
  · intro e he
    simp only [offers, exCasPre, List.filterMap_cons, RegCall.offer, List.filterMap_nil, List.mem_singleton] at he
    subst he; exact ⟨_, rfl⟩
  · intro d hd hx fx cd hf
    have hcd : cd = exCodec := by cases hf <;> rfl
    subst hcd
    simp only [List.mem_cons, List.not_mem_nil, or_false] at hd
    rcases hd with rfl | rfl | rfl
    · exact ⟨_, rfl⟩
    · cases hx
    · cases hx

end Verif.Props
