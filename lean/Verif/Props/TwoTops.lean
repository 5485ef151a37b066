import Verif.Spec.TwoTops
import Verif.Props.OnTop
/-!
# C146: which settings several layers on top can bring about
-/
namespace Verif.Props
open Verif Verif.Spec

/-- A layer that says each field that does not stay, over anything that has the same at the fields. -/
theorem tops_fields {nulls : Bool} {structs : Nat → List (String × Ty)} (m : Entries) {fs : List (String × Ty)} {ds : List (String × Data)} (hn : (fs.map Prod.fst).Nodup)
    (hall : List.Forall₂ (fun f nd => nd.1 = Prod.fst f ∧ (¬ Stays structs f.2 (hmGet m f.1) nd.2 → ∃ x k, Tops nulls structs f.2 (hmGet m f.1) nd.2 x k)) fs ds) :
    ∃ n k, ∀ m2, UniqueKeys (.map m2) → (∀ f ∈ fs, hmGet m2 f.1 = hmGet m f.1) → Tops nulls structs (.struct fs) (some (.map m2)) (.struct ds) (.map n) k := by
  obtain ⟨n, k, h1, h2, h3⟩ := tops_struct m fs ds hn hall
  refine ⟨n, k, fun m2 hm2 hsame => ?_⟩
  have hb : ∀ y, some (Value.map m2) = some y → UniqueKeys y := by rintro y h; cases h; exact hm2
  have hun : UniqueKeys (.map n) := uniqueKeys_map.2 ⟨h1, fun e he => by obtain ⟨f, _, nd, _, _, w⟩ := h2 e he; exact w.unique⟩
  refine ⟨hun, fun hz => noNone_map fun e he => ?_, fun a b hz => .map fun e he _ => ?_, fun j hd => ?_, ?_, fun a b r hr ha => ?_⟩
  · obtain ⟨f, _, nd, _, _, w⟩ := h2 e he; exact w.noNone hz
  · obtain ⟨f, hf, nd, _, _, w⟩ := h2 e he
    cases b with
    | leaf h => simp at h
    | struct b => exact w.toml a (b f hf) hz
  · cases hd with
    | flat h => cases h
    | struct hd => exact depth_map fun e he => by obtain ⟨_, _, nd, hnd, _, w⟩ := h2 e he; exact w.depth _ (hd _ hnd)
  · rw [overlaid_maps, deAt, de_struct_ok _ _ hn]
    · refine ⟨ds, rfl, ?_⟩
      clear h2 hall hn
      induction h3 with
      | nil => exact .nil
      | @cons f nd fr dr h _ ih =>
        refine .cons ⟨h.1, ?_⟩ (ih fun f hf => hsame f (by simp [hf]))
        rw [hmGet_overlaid h1, hsame f (by simp)]
        cases hg : hmGet n f.1 with
        | none => have := h.2.2 hg; exact this
        | some x => exact (h.2.1 x hg).reads
    · have := overlaid_unique hb hun
      rw [overlaid_maps] at this
      exact (uniqueKeys_map.1 this).1
  · cases b with
    | leaf h => simp at h
    | struct b =>
    obtain ⟨n', rfl⟩ := isMap_entries (v := r) (by rw [← alike_isMap ha]; rfl)
    have hun' := uniqueKeys_map.1 hr
    have hch := alike_entries ha
    have hds : ∃ ds' : List (String × Data), List.Forall₂ (fun f nd => nd.1 = Prod.fst f ∧
        (match hmGet (mergeEntries m2 n') f.1 with | some v => de (refsAt structs k) f.2 v | none => missingField f.1 f.2) = .ok nd.2) fs ds' ∧
        List.Forall₂ (fun a b => a.1 = b.1 ∧ DSame a.2 b.2) ds ds' := by
      have hcf : ∀ f ∈ fs, Concrete (Prod.snd f) := b
      clear hall h2 hn b
      induction h3 with
      | nil => exact ⟨[], .nil, .nil⟩
      | @cons f nd fr dr h _ ih =>
        obtain ⟨ds', e1, e2⟩ := ih (fun f hf => hsame f (by simp [hf])) fun f hf => hcf f (by simp [hf])
        rcases hch f.1 with ⟨c1, c2⟩ | ⟨x, y, c1, c2, c3⟩
        · refine ⟨nd :: ds', .cons ⟨h.1, ?_⟩ e1, .cons ⟨rfl, DSame.refl _⟩ e2⟩
          rw [hmGet_overlaid hun'.1, c2, hsame f (by simp)]
          exact h.2.2 c1
        · obtain ⟨d', g1, g2⟩ := (h.2.1 x c1).alike a (hcf f (by simp)) y (hun'.2 _ (hmGet_mem c2)) c3
          refine ⟨(nd.1, d') :: ds', .cons ⟨h.1, ?_⟩ e1, .cons ⟨rfl, g2⟩ e2⟩
          rw [hmGet_overlaid hun'.1, c2, hsame f (by simp)]
          exact g1
    obtain ⟨ds', e1, e2⟩ := hds
    refine ⟨.struct ds', ?_, dsame_struct e2⟩
    rw [overlaid_maps, deAt, de_struct_ok _ _ hn]
    · exact ⟨ds', rfl, e1⟩
    · have := overlaid_unique hb hr
      rw [overlaid_maps] at this
      exact (uniqueKeys_map.1 this).1

/-- Over a text anything that can be said. -/
theorem tops_text {nulls : Bool} {structs : Nat → List (String × Ty)} (hs : ∀ n, WellFormed (.struct (structs n))) {T : Ty} (hw : WellFormed T) {d : Data}
    (h : Sayable nulls structs T d) (s : String) : ∃ x k, Tops nulls structs T (some (.string s)) d x k := by
  obtain ⟨x, k, w⟩ := say hs h hw
  have ho : ∀ r : Value, overlaid (some (.string s)) r = r := fun r => overlaid_other (Or.inl (by simp))
  refine ⟨x, k, w.unique, w.noNone, w.toml, w.depth, by rw [ho]; exact w.reads, fun hsc hc r hr ha => ?_⟩
  obtain ⟨e1, e2⟩ := C66_deserialize structs hs hsc T hw hc k x r w.unique hr ha w.noClash
  obtain ⟨d', hd'⟩ := e1.1 ⟨d, w.reads⟩
  exact ⟨d', by rw [ho]; exact hd', e2 d d' w.reads hd'⟩

/-- Texts under these keys. -/
def blanks (names : List String) : Entries := names.map fun n => (n, .string "")

theorem hmGet_blanks (names : List String) (k : String) : hmGet (blanks names) k = if k ∈ names then some (.string "") else none := by
  induction names with
  | nil => rfl
  | cons a r ih =>
    show hmGet ((a, .string "") :: blanks r) k = _
    rw [hmGet]
    by_cases h : a = k
    · subst h; simp
    · rw [if_neg h, ih]; simp [Ne.symm h]

theorem blanks_keys (names : List String) : (blanks names).map Prod.fst = names := by
  rw [blanks, List.map_map]
  exact List.map_id _

theorem blanks_unique {names : List String} (h : names.Nodup) : UniqueKeys (.map (blanks names)) := by
  refine uniqueKeys_map.2 ⟨by rw [blanks_keys]; exact h, fun e he => ?_⟩
  obtain ⟨n, -, rfl⟩ := List.mem_map.1 he
  simp [UniqueKeys]

theorem blanks_noNone (names : List String) : NoNone (.map (blanks names)) := by
  refine noNone_map fun e he => ?_
  obtain ⟨n, -, rfl⟩ := List.mem_map.1 he
  exact noNone_leaf (by simp) fun s => by cases s <;> rfl

theorem hmGet_blanked {names : List String} (h : names.Nodup) (m : Entries) (k : String) :
    hmGet (mergeEntries m (blanks names)) k = if k ∈ names then some (.string "") else hmGet m k := by
  rw [hmGet_overlaid (by rw [blanks_keys]; exact h), hmGet_blanks]
  by_cases hk : k ∈ names
  · rw [if_pos hk, if_pos hk]
    exact congrArg some (overlaid_other (Or.inr rfl))
  · rw [if_neg hk, if_neg hk]

theorem keptOrSaid_index {nulls : Bool} {structs : Nat → List (String × Ty)} {fs : List (String × Ty)} {v : Value} {ds : List (String × Data)}
    (h : KeptOrSaid nulls structs fs v ds) : List.Forall₂ (fun f nd => nd.1 = Prod.fst f ∧ (Stays structs f.2 (child v (.key f.1)) nd.2 ∨ Sayable nulls structs f.2 nd.2)) fs ds := by
  refine forall2_of_index (by have := congrArg List.length h.1; simpa using this.symm) fun i f nd hf hd => ⟨?_, h.2 i f nd hf hd⟩
  have := congrArg (fun l => l[i]?) h.1
  simpa [hf, hd] using this


theorem merge_blanked {names : List String} (h : names.Nodup) {m : Entries} (hm : UniqueKeys (.map m)) : UniqueKeys (.map (mergeEntries m (blanks names))) := by
  rw [← merge_map_map]
  exact uniqueKeys_merge hm (blanks_unique h)

/-- Two memory layers. -/
theorem build_two {b : Build} {fm : Formats} {calls : List RegCall} {w : World} {skip : Bool} {v : Value} (h : (register b fm calls).buildValue w skip = .ok v)
    {c₁ c₂ : RegCall} {e₁ e₂ : String × Layer} (o₁ : c₁.offer b fm = some e₁) (o₂ : c₂.offer b fm = some e₂)
    (h₁ : ∀ a ∈ offers b fm calls, a.1 ≠ e₁.1) (h₂ : ∀ a ∈ offers b fm calls, a.1 ≠ e₂.1) (hne : e₁.1 ≠ e₂.1) {x₁ x₂ : Value} (r₁ : e₁.2.readValue w = .ok x₁)
    (r₂ : e₂.2.readValue w = .ok x₂) : (register b fm (calls ++ [c₁, c₂])).buildValue w skip = .ok ((v.merge x₁).merge x₂) := by
  have := C14_add_last b fm calls c₁ w skip e₁ x₁ v o₁ h₁ r₁ h
  have := C14_add_last b fm (calls ++ [c₁]) c₂ w skip e₂ x₂ _ o₂ (fun a ha => ?_) r₂ this
  · rwa [List.append_assoc] at this
  · have e : offers b fm (calls ++ [c₁]) = offers b fm calls ++ [e₁] := by unfold offers; rw [List.filterMap_append]; simp [o₁]
    rw [e] at ha
    rcases List.mem_append.1 ha with ha | ha
    · exact h₂ a ha
    · rw [List.mem_singleton.1 ha]; exact hne

/-- **C146.** Layers that say `v`, and two memory layers on top of them, of which the first has no `None`. Every setting can be left as it is or made anything that can be said at all (whatever the types). -/
theorem C146_two (nulls : Bool) (b : Build) (fm : Formats) (calls : List RegCall) (w : World) (skip : Bool) (v : Value)
    (h : (register b fm calls).buildValue w skip = .ok v) (hp : ∀ e ∈ firsts (offers b fm calls), Proper e.2) (n₁ n₂ : String)
    (h₁ : ∀ a ∈ offers b fm calls, a.1 ≠ n₁) (h₂ : ∀ a ∈ offers b fm calls, a.1 ≠ n₂) (hne : n₁ ≠ n₂)
    (structs : Nat → List (String × Ty)) (hs : ∀ n, WellFormed (.struct (structs n))) (fs : List (String × Ty)) (hT : WellFormed (.struct fs))
    (ds : List (String × Data)) (hd : KeptOrSaid nulls structs fs v ds) :
    ∃ x₁ x₂, UniqueKeys x₁ ∧ UniqueKeys x₂ ∧ NoNone x₁ ∧ (nulls = false → NoNone x₂) ∧
      ∃ v' k, (register b fm (calls ++ [.memory n₁ x₁, .memory n₂ x₂])).buildValue w skip = .ok v' ∧ deAt structs k (.struct fs) v' = .ok (.struct ds) := by
  classical
  obtain ⟨hvm, hvu⟩ := C08_map b fm calls w skip v h
  obtain ⟨m, rfl⟩ := isMap_entries hvm
  have hd := keptOrSaid_index hd
  cases hT with | struct hn hw =>
  -- the names of the fields that change
  let names := (fs.map Prod.fst).filter fun k => ∃ f nd, (f, nd) ∈ fs.zip ds ∧ f.1 = k ∧ ¬ Stays structs f.2 (hmGet m f.1) nd.2
  have hnn : names.Nodup := hn.filter _
  have hm2 := merge_blanked hnn (hvu hp)
  obtain ⟨n, k, ht⟩ := tops_fields (nulls := nulls) (structs := structs) (ds := ds) (mergeEntries m (blanks names)) hn (by
    have hl : fs.length = ds.length := hd.length_eq
    refine forall2_of_index hl fun i f nd hf hnd => ?_
    obtain ⟨-, hd⟩ := forall2_index hd
    obtain ⟨e, hc⟩ := hd i f nd hf hnd
    refine ⟨e, ?_⟩
    rw [hmGet_blanked hnn]
    rw [child_key_map] at hc
    have hmem : (f, nd) ∈ fs.zip ds := List.mem_of_getElem? (i := i) (by rw [List.getElem?_zip_eq_some]; exact ⟨hf, hnd⟩)
    by_cases hst : Stays structs f.2 (hmGet m f.1) nd.2
    · have : f.1 ∉ names := by
        intro hin
        obtain ⟨-, hx⟩ := List.mem_filter.1 hin
        obtain ⟨g, gd, hg, hgf, hno⟩ := of_decide_eq_true hx
        obtain ⟨j, hj⟩ := List.getElem?_of_mem hg
        rw [List.getElem?_zip_eq_some] at hj
        have hij : j = i := by
          refine (List.getElem?_inj (i := j) (j := i) (l := fs.map Prod.fst) (by have := lt_of_get hj.1; simpa using this) hn).1 ?_
          rw [List.getElem?_map, List.getElem?_map, hj.1, hf]
          simp [hgf]
        subst hij
        rw [hf, hnd] at hj
        cases hj.1; cases hj.2
        exact hno hst
      rw [if_neg this]
      exact fun hno => absurd hst hno
    · have : f.1 ∈ names := List.mem_filter.2 ⟨List.mem_map_of_mem (List.mem_of_getElem? hf), decide_eq_true ⟨f, nd, hmem, rfl, hst⟩⟩
      rw [if_pos this]
      exact fun _ => tops_text hs (hw f (List.mem_of_getElem? hf)) (hc.resolve_left hst) "")
  have ht := ht _ hm2 fun _ _ => rfl
  refine ⟨.map (blanks names), .map n, blanks_unique hnn, ht.unique, blanks_noNone _, ht.noNone, _, k, build_two h rfl rfl h₁ h₂ hne rfl rfl, ?_⟩
  have := ht.reads
  rw [overlaid_maps] at this
  rw [merge_map_map, merge_map_map]
  exact this

theorem struct_names {fs : List (String × Ty)} (h : WellFormed (.struct fs)) : (fs.map Prod.fst).Nodup := by
  cases h with | struct hn _ => exact hn

/-- Over texts under every name. -/
theorem tops_blanked {nulls : Bool} {structs : Nat → List (String × Ty)} (hs : ∀ n, WellFormed (.struct (structs n))) {fs : List (String × Ty)} (hT : WellFormed (.struct fs))
    {ds : List (String × Data)} (hnames : ds.map Prod.fst = fs.map Prod.fst) (hd : ∀ (i : Nat) f d, fs[i]? = some f → ds[i]? = some d → Sayable nulls structs f.2 d.2) :
    ∃ n k, ∀ m2, UniqueKeys (.map m2) → (∀ f ∈ fs, hmGet m2 f.1 = some (.string "")) → Tops nulls structs (.struct fs) (some (.map m2)) (.struct ds) (.map n) k := by
  cases hT with | struct hn hw =>
  have key : ∀ f ∈ fs, hmGet (blanks (fs.map Prod.fst)) f.1 = some (.string "") := fun f hf => by rw [hmGet_blanks, if_pos (List.mem_map_of_mem hf)]
  obtain ⟨n, k, ht⟩ := tops_fields (nulls := nulls) (structs := structs) (ds := ds) (blanks (fs.map Prod.fst)) hn (by
    refine forall2_of_index (by have := congrArg List.length hnames; simpa using this.symm) fun i f nd hf hnd => ⟨?_, fun _ => ?_⟩
    · have := congrArg (fun l => l[i]?) hnames
      simpa [hf, hnd] using this
    · rw [key f (List.mem_of_getElem? hf)]
      exact tops_text hs (hw f (List.mem_of_getElem? hf)) (hd i f nd hf hnd) "")
  exact ⟨n, k, fun m2 h1 h2 => ht m2 h1 fun f hf => by rw [h2 f hf, key f hf]⟩

/-- **C146.** The same two layers do whatever is below: for settings of which each can be said there are two maps such that with memory layers that hold them, over any layers that can be read, the
program reads exactly these settings. -/
theorem C146_whatever (nulls : Bool) (structs : Nat → List (String × Ty)) (hs : ∀ n, WellFormed (.struct (structs n))) (fs : List (String × Ty)) (hT : WellFormed (.struct fs))
    (ds : List (String × Data)) (hnames : ds.map Prod.fst = fs.map Prod.fst) (hd : ∀ (i : Nat) f d, fs[i]? = some f → ds[i]? = some d → Sayable nulls structs f.2 d.2) :
    ∃ x₁ x₂ k, UniqueKeys x₁ ∧ UniqueKeys x₂ ∧ NoNone x₁ ∧ (nulls = false → NoNone x₂) ∧
      ∀ (b : Build) (fm : Formats) (calls : List RegCall) (w : World) (skip : Bool) (v : Value), (register b fm calls).buildValue w skip = .ok v →
        (∀ e ∈ firsts (offers b fm calls), Proper e.2) → ∀ n₁ n₂, (∀ a ∈ offers b fm calls, a.1 ≠ n₁) → (∀ a ∈ offers b fm calls, a.1 ≠ n₂) → n₁ ≠ n₂ →
        ∃ v', (register b fm (calls ++ [.memory n₁ x₁, .memory n₂ x₂])).buildValue w skip = .ok v' ∧ deAt structs k (.struct fs) v' = .ok (.struct ds) := by
  have hn := (struct_names hT)
  obtain ⟨n, k, ht⟩ := tops_blanked hs hT hnames hd
  have hu := (ht _ (blanks_unique hn) fun f hf => by rw [hmGet_blanks, if_pos (List.mem_map_of_mem hf)])
  refine ⟨.map (blanks (fs.map Prod.fst)), .map n, k, blanks_unique hn, hu.unique, blanks_noNone _, hu.noNone, fun b fm calls w skip v h hp n₁ n₂ h₁ h₂ hne => ?_⟩
  obtain ⟨hvm, hvu⟩ := C08_map b fm calls w skip v h
  obtain ⟨m, rfl⟩ := isMap_entries hvm
  refine ⟨_, build_two h rfl rfl h₁ h₂ hne rfl rfl, ?_⟩
  have := (ht _ (merge_blanked hn (hvu hp)) fun f hf => by rw [hmGet_blanked hn, if_pos (List.mem_map_of_mem hf)]).reads
  rw [overlaid_maps] at this
  rw [merge_map_map, merge_map_map]
  exact this

/-- What comes back from a file of a format like TOML. -/
theorem toml_read_back {limit : Nat} {cd : Codec} (htl : TomlLike limit cd) {x : Value} (hxm : x.isMap = true) (hu : UniqueKeys x) (hz : NoNone x) (ht : TomlHolds x)
    (hdepth : DepthBelow x limit) : ∃ text, cd.print x.toData = .ok text ∧ ∀ (w : World) (p : OsStr) (we : Option Nat), w.disk (w.locate p) = .file (utf8 text) none we →
      ∃ r, (Layer.file (textHandler cd) p).readValue w = .ok r ∧ UniqueKeys r ∧ Alike x r := by
  obtain ⟨text, hp⟩ := (htl.prints x).2 ⟨hxm, ht⟩
  refine ⟨text, hp, fun w p we hdisk => ?_⟩
  obtain ⟨doc, s, h1, h2, h3, h4⟩ := htl.parses x text hu hdepth hp
  obtain ⟨r, h5, h6, h7⟩ := C66_reads s h4 doc h2
  have he : w.pathExists p = true := by simp [World.pathExists, hdisk]
  refine ⟨r, (C56_content cd w p he r).2 ⟨text, doc, we, hdisk, h1, h5⟩, h7, ?_⟩
  intro q
  rw [← (h3 q).2 fun hne => hz q hne.2]
  exact h6 q

theorem alike_text {s : String} {r : Value} (h : Alike (.string s) r) : r = .string s := by
  rcases h [] with ⟨h1, -⟩ | ⟨a, b, h1, h2, h3⟩
  · cases h1
  · cases h1
    cases h2
    rcases h3 with e | ⟨n, e, -⟩
    · cases r <;> simp [head] at e
      rw [e]
    · cases e

/-- **C146.** Two TOML files do it as well (for settings that need no `None` and are nested less deep than the format's limit, and types that name no `Value`), over whatever is below. -/
theorem C146_files (structs : Nat → List (String × Ty)) (hs : ∀ n, WellFormed (.struct (structs n))) (hsc : ∀ n, Concrete (.struct (structs n)))
    (fs : List (String × Ty)) (hT : WellFormed (.struct fs)) (hTc : Concrete (.struct fs)) (ds : List (String × Data)) (hnames : ds.map Prod.fst = fs.map Prod.fst)
    (hd : ∀ (i : Nat) f d, fs[i]? = some f → ds[i]? = some d → Sayable false structs f.2 d.2) :
    ∃ x₁ x₂, UniqueKeys x₁ ∧ UniqueKeys x₂ ∧ ∀ (limit : Nat) (cd : Codec), TomlLike limit cd → NestedBelow (.struct ds) limit →
      ∃ t₁ t₂, cd.print x₁.toData = .ok t₁ ∧ cd.print x₂.toData = .ok t₂ ∧
        ∀ (b : Build) (fm : Formats) (calls : List RegCall) (w : World) (skip : Bool) (v : Value), (register b fm calls).buildValue w skip = .ok v →
          (∀ e ∈ firsts (offers b fm calls), Proper e.2) → ∀ n₁ n₂, (∀ a ∈ offers b fm calls, a.1 ≠ n₁) → (∀ a ∈ offers b fm calls, a.1 ≠ n₂) → n₁ ≠ n₂ →
          ∀ p₁ p₂ e₁ e₂, FormatOf b fm p₁ cd → FormatOf b fm p₂ cd → w.disk (w.locate p₁) = .file (utf8 t₁) none e₁ → w.disk (w.locate p₂) = .file (utf8 t₂) none e₂ →
          ∃ v' k d', (register b fm (calls ++ [.file n₁ p₁, .file n₂ p₂])).buildValue w skip = .ok v' ∧ deAt structs k (.struct fs) v' = .ok d' ∧ DSame (.struct ds) d' := by
  have hn := (struct_names hT)
  obtain ⟨n, k, ht⟩ := tops_blanked hs hT hnames hd
  have hu := (ht _ (blanks_unique hn) fun f hf => by rw [hmGet_blanks, if_pos (List.mem_map_of_mem hf)])
  refine ⟨.map (blanks (fs.map Prod.fst)), .map n, blanks_unique hn, hu.unique, fun limit cd htl hdepth => ?_⟩
  obtain ⟨t₁, hp₁, hr₁⟩ := toml_read_back htl rfl (blanks_unique hn) (blanks_noNone _) (.map fun e he _ => by
    obtain ⟨n, -, rfl⟩ := List.mem_map.1 he
    exact .string _) (by
      cases hdepth with
      | flat h => cases h
      | @struct _ n h =>
        refine depth_map fun e he => ?_
        obtain ⟨a, ha, rfl⟩ := List.mem_map.1 he
        rw [← hnames] at ha
        obtain ⟨d, hd, -⟩ := List.mem_map.1 ha
        exact nested_flat (h d hd) fun s => by cases s <;> rfl)
  obtain ⟨t₂, hp₂, hr₂⟩ := toml_read_back htl rfl hu.unique (hu.noNone rfl) (hu.toml hsc hTc rfl) (hu.depth _ hdepth)
  refine ⟨t₁, t₂, hp₁, hp₂, fun b fm calls w skip v h hp n₁ n₂ h₁ h₂ hne p₁ p₂ e₁ e₂ f₁ f₂ k₁ k₂ => ?_⟩
  obtain ⟨hvm, hvu⟩ := C08_map b fm calls w skip v h
  obtain ⟨m, rfl⟩ := isMap_entries hvm
  obtain ⟨r₁, hr₁, u₁, a₁⟩ := hr₁ w p₁ e₁ k₁
  obtain ⟨r₂, hr₂, u₂, a₂⟩ := hr₂ w p₂ e₂ k₂
  obtain ⟨m₁, rfl⟩ := isMap_entries (v := r₁) (by rw [← alike_isMap a₁]; rfl)
  obtain ⟨m₂, rfl⟩ := isMap_entries (v := r₂) (by rw [← alike_isMap a₂]; rfl)
  have hm : UniqueKeys (.map (mergeEntries m m₁)) := by rw [← merge_map_map]; exact uniqueKeys_merge (hvu hp) u₁
  have ht := ht _ hm fun f hf => by
    rw [hmGet_overlaid (uniqueKeys_map.1 u₁).1]
    rcases alike_entries a₁ f.1 with ⟨c, -⟩ | ⟨x, y, c1, c2, c3⟩
    · rw [hmGet_blanks, if_pos (List.mem_map_of_mem hf)] at c; cases c
    · rw [hmGet_blanks, if_pos (List.mem_map_of_mem hf)] at c1
      cases c1
      rw [alike_text c3] at c2
      rw [c2]
      exact congrArg some (overlaid_other (Or.inr rfl))
  obtain ⟨d', g1, g2⟩ := ht.alike hsc hTc _ u₂ a₂
  refine ⟨_, k, d', build_two h (TextFmt.offer f₁ n₁) (TextFmt.offer f₂ n₂) h₁ h₂ hne hr₁ hr₂, ?_, g2⟩
  rw [overlaid_maps] at g1
  rw [merge_map_map, merge_map_map]
  exact g1

/-! ## Nothing else -/

theorem firsts_left {α : Type} {a b : List (String × α)} {e : String × α} (h : e ∈ firsts a) : e ∈ firsts (a ++ b) := by
  induction a with
  | nil => cases h
  | cons x r ih =>
    obtain ⟨k, y⟩ := x
    rw [firsts] at h
    rw [List.cons_append, firsts]
    rcases List.mem_cons.1 h with h | h
    · rw [h]; simp
    · rw [List.mem_filter] at h
      exact List.mem_cons_of_mem _ (List.mem_filter.2 ⟨ih h.1, h.2⟩)

theorem overlay_kept (l : List Value) : ∀ a : Option Value, (l.foldl overlay a = none ↔ a = none ∧ l = []) := by
  induction l with
  | nil => simp
  | cons x r ih =>
    intro a
    rw [List.foldl_cons, ih]
    have : overlay a x ≠ none := by
      cases a with
      | none => simp [overlay]
      | some y => simp only [overlay]; split <;> simp
    simp [this]

/-- No key goes away when layers are added. -/
theorem key_stays {b : Build} {fm : Formats} {calls more : List RegCall} {w : World} {skip : Bool} {v v' : Value} (h : (register b fm calls).buildValue w skip = .ok v)
    (h' : (register b fm (calls ++ more)).buildValue w skip = .ok v') (hp : ∀ e ∈ firsts (offers b fm (calls ++ more)), Proper e.2) {k : String}
    (hk : child v' (.key k) = none) : child v (.key k) = none := by
  have sub : ∀ e ∈ firsts (offers b fm calls), e ∈ firsts (offers b fm (calls ++ more)) := by
    intro e he
    have : offers b fm (calls ++ more) = offers b fm calls ++ offers b fm more := by unfold offers; rw [List.filterMap_append]
    rw [this]
    exact firsts_left he
  rw [build_ok h', child_fold k _ hp Value.newMap rfl, overlay_kept] at hk
  rw [build_ok h, child_fold k _ (fun e he => hp e (sub e he)) Value.newMap rfl, overlay_kept]
  refine ⟨rfl, List.eq_nil_iff_forall_not_mem.2 fun x hx => ?_⟩
  obtain ⟨e, he, hv⟩ := List.mem_filterMap.1 hx
  exact List.eq_nil_iff_forall_not_mem.1 hk.2 x (List.mem_filterMap.2 ⟨e, sub e he, hv⟩)

/-- **C146.** And however many of the crate's layers are put on top, whatever is in the files and the environment, no setting becomes anything else. -/
theorem C146_only (nulls : Bool) (b : Build) (fm : Formats) (calls more : List RegCall) (hb : ∀ c ∈ calls ++ more, c.BuiltIn)
    (hm : ∀ n x, RegCall.memory n x ∈ calls ++ more → UniqueKeys x ∧ (nulls = false → NoNone x))
    (hc : ∀ n p cd, RegCall.file n p ∈ calls ++ more → FormatOf b fm p cd → nulls = false → NullFreeFormat cd)
    (w : World) (skip : Bool) (v v' : Value) (h : (register b fm calls).buildValue w skip = .ok v) (h' : (register b fm (calls ++ more)).buildValue w skip = .ok v')
    (structs : Nat → List (String × Ty)) (hs : ∀ n, WellFormed (.struct (structs n))) (fs : List (String × Ty)) (hT : WellFormed (.struct fs)) (k : Nat) (d : Data)
    (hd : deAt structs k (.struct fs) v' = .ok d) : ∃ ds, d = .struct ds ∧ KeptOrSaid nulls structs fs v ds := by
  have hp : ∀ e ∈ firsts (offers b fm (calls ++ more)), Proper e.2 := by
    intro e he
    obtain ⟨c, hc, ho⟩ := List.mem_filterMap.1 (mem_firsts he)
    exact C08_builtin_proper b fm c e (hb c hc) (fun n x hx => (hm n x (hx ▸ hc)).1) ho
  obtain ⟨hvm, hvu⟩ := C08_map b fm _ w skip v' h'
  obtain ⟨m, rfl⟩ := isMap_entries hvm
  rw [deAt] at hd
  obtain ⟨ds, rfl, h1⟩ := (de_struct_ok _ _ (struct_names hT) _ (uniqueKeys_map.1 (hvu hp)).1 _).1 hd
  obtain ⟨l1, h2⟩ := forall2_index h1
  refine ⟨ds, rfl, (fields_of h1).1, fun i f nd hf hnd => ?_⟩
  have h3 := (h2 i f nd hf hnd).2
  cases hg : hmGet m f.1 with
  | none =>
    rw [hg] at h3
    exact Or.inl (Or.inr ⟨key_stays h h' hp (by rw [child_key_map]; exact hg), missing_cases h3⟩)
  | some z =>
    rw [hg] at h3
    -- seen through a newtype, the field is said
    have hone : deAt structs k (.struct [(f.1, .newtype f.2)]) (.map m) = .ok (.struct [(f.1, .newtypeStruct nd.2)]) := by
      rw [deAt, de_struct_ok _ _ (by simp) _ (uniqueKeys_map.1 (hvu hp)).1]
      refine ⟨_, rfl, .cons ⟨rfl, ?_⟩ .nil⟩
      rw [hg]
      show de _ (.newtype f.2) z = _
      have h3 : de (refsAt structs k) f.2 z = .ok nd.2 := h3
      rw [de, h3]
      rfl
    have hw : WellFormed f.2 := by cases hT with | struct _ hw => exact hw f (List.mem_of_getElem? hf)
    have hS := C140_only nulls b fm (calls ++ more) hb hm hc w skip _ h' structs hs _ (.struct (by simp) fun g hg => by rw [List.mem_singleton] at hg; subst hg; exact .newtype hw) k _ hone
    cases hS with
    | struct _ hall =>
      have := hall 0 _ _ rfl rfl (by rintro ⟨-, t, ht⟩; cases ht)
      cases this with
      | newtype hs => exact Or.inr hs

/-- **C146.** So what any number of them can do, two memory layers can. -/
theorem C146_enough (nulls : Bool) (b : Build) (fm : Formats) (calls more : List RegCall) (hb : ∀ c ∈ calls ++ more, c.BuiltIn)
    (hm : ∀ n x, RegCall.memory n x ∈ calls ++ more → UniqueKeys x ∧ (nulls = false → NoNone x))
    (hc : ∀ n p cd, RegCall.file n p ∈ calls ++ more → FormatOf b fm p cd → nulls = false → NullFreeFormat cd)
    (w : World) (skip : Bool) (v v' : Value) (h : (register b fm calls).buildValue w skip = .ok v) (h' : (register b fm (calls ++ more)).buildValue w skip = .ok v')
    (structs : Nat → List (String × Ty)) (hs : ∀ n, WellFormed (.struct (structs n))) (fs : List (String × Ty)) (hT : WellFormed (.struct fs)) (k : Nat) (d : Data)
    (hd : deAt structs k (.struct fs) v' = .ok d) (n₁ n₂ : String) (h₁ : ∀ a ∈ offers b fm calls, a.1 ≠ n₁) (h₂ : ∀ a ∈ offers b fm calls, a.1 ≠ n₂) (hne : n₁ ≠ n₂) :
    ∃ x₁ x₂, UniqueKeys x₁ ∧ UniqueKeys x₂ ∧ NoNone x₁ ∧ (nulls = false → NoNone x₂) ∧
      ∃ v₂ j, (register b fm (calls ++ [.memory n₁ x₁, .memory n₂ x₂])).buildValue w skip = .ok v₂ ∧ deAt structs j (.struct fs) v₂ = .ok d := by
  obtain ⟨ds, rfl, hk⟩ := C146_only nulls b fm calls more hb hm hc w skip v v' h h' structs hs fs hT k d hd
  refine C146_two nulls b fm calls w skip v h (fun e he => ?_) n₁ n₂ h₁ h₂ hne structs hs fs hT ds hk
  obtain ⟨c, hcm, ho⟩ := List.mem_filterMap.1 (mem_firsts he)
  exact C08_builtin_proper b fm c e (hb c (by simp [hcm])) (fun n x hx => (hm n x (by rw [← hx]; simp [hcm])).1) ho

/-! ## Examples -/

theorem exTop_kept : KeptOrSaid false exNoStructs exTopTy exBelow [("host", .str "b"), ("proxy", .some (.str "p")), ("net", .struct [("port", .int .u16 ⟨8080, by decide⟩), ("via", .none)])] := by
  refine ⟨rfl, fun i f d hf hd => ?_⟩
  match i, hf, hd with
  | 0, rfl, rfl => exact Or.inr (.string _)
  | 1, rfl, rfl => exact Or.inl (Or.inl ⟨.string "p", 0, rfl, rfl⟩)
  | 2, rfl, rfl =>
    refine Or.inr (.struct rfl fun i f d hf hd hno => ?_)
    match i, hf, hd with
    | 0, rfl, rfl => exact .int _ (by simp [Upto64])
    | 1, rfl, rfl => exact absurd ⟨rfl, _, rfl⟩ hno

/-- One layer without `None` cannot unset the gateway (`exTop_unset`); two can. -/
example (fm : Formats) (w : World) : ∃ x₁ x₂, NoNone x₁ ∧ NoNone x₂ ∧
    ∃ v' k, (register exB1 fm [.memory "d" exBelow, .memory "t" x₁, .memory "u" x₂]).buildValue w false = .ok v' ∧ deAt exNoStructs k (.struct exTopTy) v' = .ok (exTopD .none) := by
  obtain ⟨x₁, x₂, -, -, h1, h2, h3⟩ := C146_two false exB1 fm [.memory "d" exBelow] w false exBelow rfl (exTop_proper fm) "t" "u"
    (fun a ha => by rw [exTop_new fm a ha]; simp) (fun a ha => by rw [exTop_new fm a ha]; simp) (by decide) exNoStructs exNoStructs_wf exTopTy exTopTy_wf _ exTop_kept
  exact ⟨x₁, x₂, h1, h2 rfl, h3⟩

/-- But none can unset the proxy, however many: it is a setting of its own, not in a section. -/
example (fm : Formats) (hf : NullFreeFormat fm.toml) (more : List RegCall) (hb : ∀ c ∈ more, (∃ n, c = .environment n "APP_") ∨ ∃ n p, c = .file n p) (w : World) (v' : Value)
    (h' : (register exB1 fm ([.memory "d" exBelow] ++ more)).buildValue w false = .ok v') (k : Nat) (ds : List (String × Data))
    (hd : deAt exNoStructs k (.struct exTopTy) v' = .ok (.struct ds)) : ds[1]? ≠ some ("proxy", .none) := by
  intro hp
  have key := C146_only false exB1 fm [.memory "d" exBelow] more ?_ ?_ ?_ w false exBelow v' rfl h' exNoStructs exNoStructs_wf exTopTy exTopTy_wf k _ hd
  · obtain ⟨_, e, -, hall⟩ := key
    cases e
    rcases hall 1 _ _ rfl hp with (⟨z, j, hz, h⟩ | ⟨h, -⟩) | h
    · cases hz; cases h
    · cases h
    · cases h with | none _ h => cases h
  · intro c hc
    rcases List.mem_append.1 hc with hc | hc
    · rw [List.mem_singleton.1 hc]; trivial
    · rcases hb c hc with ⟨n, rfl⟩ | ⟨n, p, rfl⟩ <;> trivial
  · intro n x hc
    rcases List.mem_append.1 hc with hc | hc
    · cases List.mem_singleton.1 hc
      refine ⟨exBelow_unique, fun _ => noNone_map fun e he => ?_⟩
      simp only [List.mem_cons, List.not_mem_nil, or_false] at he
      rcases he with rfl | rfl | rfl
      · exact noNone_leaf (by simp) fun s => by cases s <;> rfl
      · exact noNone_leaf (by simp) fun s => by cases s <;> rfl
      · refine noNone_map fun e he => ?_
        simp only [List.mem_cons, List.not_mem_nil, or_false] at he
        rcases he with rfl | rfl <;> exact noNone_leaf (by simp) fun s => by cases s <;> rfl
    · rcases hb _ hc with ⟨n, h⟩ | ⟨n, p, h⟩ <;> cases h
  · intro n p cd _ hfo _
    rcases hfo with ⟨-, -, rfl⟩ | ⟨-, h, -⟩
    · exact hf
    · cases h

theorem exTop_said : ∀ (i : Nat) f (d : String × Data), exTopTy[i]? = some f →
    [("host", Data.str "b"), ("proxy", .some (.str "r")), ("net", .struct [("port", .int .u16 ⟨8080, by decide⟩), ("via", .none)])][i]? = some d → Sayable false exNoStructs f.2 d.2 := by
  intro i f d hf hd
  match i, hf, hd with
  | 0, rfl, rfl => exact .string _
  | 1, rfl, rfl => exact .some (.string _) (fun h => nomatch h)
  | 2, rfl, rfl =>
    refine .struct rfl fun i f d hf hd hno => ?_
    match i, hf, hd with
    | 0, rfl, rfl => exact .int _ (by simp [Upto64])
    | 1, rfl, rfl => exact absurd ⟨rfl, _, rfl⟩ hno

/-- Two maps that give these settings over a file and the environment, whatever is in them (if they can be read). -/
example : ∃ x₁ x₂ k, ∀ (w : World) (v : Value), (register exB1 exFormats [.file "f" (os "/c.toml"), .environment "e" "APP_"]).buildValue w false = .ok v →
    ∃ v', (register exB1 exFormats [.file "f" (os "/c.toml"), .environment "e" "APP_", .memory "t" x₁, .memory "u" x₂]).buildValue w false = .ok v' ∧
      deAt exNoStructs k (.struct exTopTy) v' =
        .ok (.struct [("host", .str "b"), ("proxy", .some (.str "r")), ("net", .struct [("port", .int .u16 ⟨8080, by decide⟩), ("via", .none)])]) := by
  obtain ⟨x₁, x₂, k, -, -, -, -, h⟩ := C146_whatever false exNoStructs exNoStructs_wf exTopTy exTopTy_wf _ rfl exTop_said
  refine ⟨x₁, x₂, k, fun w v hv => h exB1 exFormats [.file "f" (os "/c.toml"), .environment "e" "APP_"] w false v hv (fun e he => ?_) "t" "u" ?_ ?_ (by decide)⟩
  · obtain ⟨c, hcm, ho⟩ := List.mem_filterMap.1 (mem_firsts he)
    simp only [List.mem_cons, List.not_mem_nil, or_false] at hcm
    refine C08_builtin_proper exB1 exFormats c e ?_ (fun n x hx => ?_) ho
    · rcases hcm with rfl | rfl <;> trivial
    · rcases hcm with rfl | rfl <;> cases hx
  all_goals
    intro a ha
    obtain ⟨c, hcm, ho⟩ := List.mem_filterMap.1 ha
    simp only [List.mem_cons, List.not_mem_nil, or_false] at hcm
    rcases hcm with rfl | rfl
    · obtain ⟨cd, rfl, -⟩ := offer_file ho; simp
    · simp only [RegCall.offer, Option.some.injEq] at ho; subst ho; simp

/-- With two TOML files. -/
example : ∃ t₁ t₂, ∀ (w : World), w.disk (w.locate (os "/a.toml")) = .file (utf8 t₁) none none → w.disk (w.locate (os "/b.toml")) = .file (utf8 t₂) none none →
    ∃ v' k d', (register exB1 ⟨exTomlS, exTomlS⟩ [.memory "d" exBelow, .file "f" (os "/a.toml"), .file "g" (os "/b.toml")]).buildValue w false = .ok v' ∧
      deAt exNoStructs k (.struct exTopTy) v' = .ok d' ∧
      DSame (.struct [("host", .str "b"), ("proxy", .some (.str "r")), ("net", .struct [("port", .int .u16 ⟨8080, by decide⟩), ("via", .none)])]) d' := by
  obtain ⟨x₁, x₂, u₁, u₂, h⟩ := C146_files exNoStructs exNoStructs_wf (fun _ => .struct (by simp [exNoStructs])) exTopTy exTopTy_wf exTopTy_concrete _ rfl exTop_said
  obtain ⟨t₁, t₂, -, -, ht⟩ := h 3 exTomlS (exTomlS_like 3) (.struct (by
    simp only [List.forall_mem_cons]
    exact ⟨.flat rfl, .some (.flat rfl), .struct (by simp only [List.forall_mem_cons]; exact ⟨.flat rfl, .flat rfl, by simp⟩), by simp⟩))
  exact ⟨t₁, t₂, fun w w₁ w₂ => ht exB1 ⟨exTomlS, exTomlS⟩ [.memory "d" exBelow] w false exBelow rfl (exTop_proper _) "f" "g"
    (fun a ha => by rw [exTop_new _ a ha]; simp) (fun a ha => by rw [exTop_new _ a ha]; simp) (by decide) _ _ none none
    (Or.inl ⟨by decide, rfl, rfl⟩) (Or.inl ⟨by decide, rfl, rfl⟩) w₁ w₂⟩

end Verif.Props
