import Verif.Props.Stack
import Verif.Props.Editing
import Verif.Spec.Sharing
/-!
# C127: several programs, each with a settings type of its own, share one settings file
-/
namespace Verif.Props
open Verif Verif.Spec

variable {ι : Type} [DecidableEq ι] {limit : Nat} {cd : Codec} {path : OsStr} {structs : Nat → List (String × Ty)} {fields : ι → List (String × Ty)}

theorem fieldTable_mem {ds : List (String × Data)} (hn : (ds.map Prod.fst).Nodup) {name : String} {x : Data} (h : (name, x) ∈ ds) : fieldTable ds name = x := by
  unfold fieldTable
  cases hf : ds.find? fun e => e.1 == name with
  | none =>
    have := List.find?_eq_none.1 hf _ h
    simp at this
  | some e =>
    have h1 := List.mem_of_find?_eq_some hf
    have h2 := List.find?_some hf
    simp only [beq_iff_eq] at h2
    obtain ⟨n, y⟩ := e
    simp only at h2
    subst h2
    exact mem_unique hn h1 h

theorem fieldTable_unknown {ds : List (String × Data)} {name : String} (h : name ∉ ds.map Prod.fst) : fieldTable ds name = .none := by
  unfold fieldTable
  cases hf : ds.find? fun e => e.1 == name with
  | none => rfl
  | some e =>
    have h1 := List.mem_of_find?_eq_some hf
    have h2 := List.find?_some hf
    simp only [beq_iff_eq] at h2
    exact absurd (List.mem_map.2 ⟨e, h1, h2⟩) h

theorem fieldTable_same {xs ys : List (String × Data)} (h : DSame (.struct xs) (.struct ys)) (name : String) : DSame (fieldTable xs name) (fieldTable ys name) := by
  have hf : ∀ p, (((xs.find? fun x => x.1 == name).map Prod.snd).bind fun x => dview x p) =
      ((ys.find? fun x => x.1 == name).map Prod.snd).bind fun x => dview x p := fun p => h (.field name :: p)
  unfold fieldTable
  cases hx : xs.find? fun x => x.1 == name with
  | none =>
    cases hy : ys.find? fun x => x.1 == name with
    | none => exact DSame.refl _
    | some y => have := hf []; rw [hx, hy] at this; cases this
  | some x =>
    cases hy : ys.find? fun x => x.1 == name with
    | none => have := hf []; rw [hx, hy] at this; cases this
    | some y => rw [hx, hy] at hf; exact fun p => hf p

theorem fills_congr {fs : List (String × Ty)} {t t' : Table} {ds : List (String × Data)} (h : Fills fs t ds) (ht : ∀ name, DSame (t' name) (t name)) :
    Fills fs t' ds := ⟨h.1, fun name x hx => DSame.trans (ht name) (h.2 name x hx)⟩

theorem fileHolds_congr {w : World} {t t' : Table} (h : FileHolds cd path structs fields w t) (ht : ∀ name, DSame (t' name) (t name)) :
    FileHolds cd path structs fields w t' := by
  obtain ⟨v, h1, h2⟩ := h
  refine ⟨v, h1, fun j => ⟨(h2 j).1, fun k d hd => ?_⟩⟩
  obtain ⟨ds, e, hf⟩ := (h2 j).2 k d hd
  exact ⟨ds, e, fills_congr hf ht⟩

theorem struct_ok {refs : Nat → Decoder} {fs : List (String × Ty)} {v : Value} {d : Data} (h : de refs (.struct fs) v = .ok d)
    (hn : (fs.map Prod.fst).Nodup) (hu : UniqueKeys v) : ∃ ds, d = .struct ds := by
  obtain ⟨m, rfl⟩ := struct_map h
  obtain ⟨ds, e, -⟩ := (de_struct_ok _ _ hn _ (uniqueKeys_map.1 hu).1 _).1 h
  exact ⟨ds, e⟩

/-- **C127.** When one of the programs has saved its settings, every program can load the file, and finds the saved settings in the fields it shares with
the saver, and `None` in the others. -/
theorem C127_save (ht : TomlLike limit cd)
    (hs : ∀ n, Survives (.struct (structs n))) (hsc : ∀ n, Concrete (.struct (structs n))) (hso : ∀ n, OmitsNone (.struct (structs n)))
    (hf : ∀ i, Survives (.struct (fields i))) (hfc : ∀ i, Concrete (.struct (fields i))) (hfo : ∀ i, OmitsNone (.struct (fields i)))
    (hfit : FitTogether fields) (i : ι) (ds : List (String × Data)) (hd : HasType structs (.struct (fields i)) (.struct ds))
    (v : Value) (hv : ser (.struct ds) = .ok v) (hdepth : DepthBelow v limit) (w w' : World)
    (hok : (Layer.newFile (textHandler cd) path).writeValue w v = (.ok (), w'))
    (hread : ∀ bs code wr, w.disk (w.locate path) ≠ .file bs (some code) wr) :
    FileHolds cd path structs fields w' (fieldTable ds) := by
  obtain ⟨r, hr, k0, h⟩ := C84_typed ht structs hs hsc hso _ (hf i) (hfc i) (hfo i) _ hd v hv hdepth w w' path hok hread
  obtain ⟨-, s, r', h1, hom, -, hal, hur⟩ := toml_stored ht (uniqueKeys_ser _ v hv) hdepth hok hread
  rw [hr] at h1
  cases h1
  have hk := onlyKnown_fewer (onlyKnown_ser hs hd (hf i) v hv) r (fewer_of_alikeOmitting (alikeOmitting_of hom hal))
  have nodup : ∀ j, ((fields j).map Prod.fst).Nodup := fun j => by cases hf j; assumption
  have big : ∀ j k, k0 ≤ k → ∃ ds', deAt structs k (.struct (fields j)) r = .ok (.struct ds') ∧ Fills (fields j) (fieldTable ds) ds' := by
    intro j k hk0
    obtain ⟨d1, e1, e2⟩ := h k hk0
    obtain ⟨m, rfl⟩ := struct_map e1
    have hum := uniqueKeys_map.1 hur
    obtain ⟨d1, rfl, e3⟩ := (de_struct_ok _ _ (nodup i) _ hum.1 _).1 e1
    obtain ⟨hnames, hfields⟩ := fields_of e3
    have step : ∀ f ∈ fields j, ∃ nd : String × Data, (nd.1 = f.1 ∧
        (match hmGet m f.1 with | some v => de (refsAt structs k) f.2 v | none => missingField f.1 f.2) = .ok nd.2) ∧ DSame (fieldTable ds f.1) nd.2 := by
      rintro ⟨name, t⟩ hmem
      by_cases hin : name ∈ (fields i).map Prod.fst
      · obtain ⟨⟨n2, x⟩, hx, e⟩ := List.mem_map.1 (show name ∈ d1.map Prod.fst by rw [hnames]; exact hin)
        simp only at e
        subst e
        obtain ⟨t', ht', h4⟩ := hfields _ x hx
        have : t' = t := hfit.same i j _ _ _ ht' hmem
        subst this
        refine ⟨(n2, x), ⟨rfl, h4⟩, ?_⟩
        have := fieldTable_same e2 n2
        rwa [fieldTable_mem (by rw [hnames]; exact nodup i) hx] at this
      · obtain ⟨u, rfl⟩ := hfit.optional j i name t hmem hin
        have hg : hmGet m name = none := by
          cases hg : hmGet m name with
          | none => rfl
          | some x =>
            cases hk with
            | leaf h => simp at h
            | struct h _ => exact absurd (h name x (by rw [child_key_map]; exact hg)) hin
        refine ⟨(name, .none), ⟨rfl, by simp only [hg]; rfl⟩, ?_⟩
        have hds : ds.map Prod.fst = (fields i).map Prod.fst := by cases hd; assumption
        rw [fieldTable_unknown (by rw [hds]; exact hin)]
        exact DSame.refl _
    obtain ⟨ds', h2⟩ := forall2_exists step
    have h3 := h2.imp fun _ _ h => h.1
    refine ⟨ds', (de_struct_ok _ _ (nodup j) _ hum.1 _).2 ⟨ds', rfl, h3⟩, (fields_of h3).1, fun name x hx => ?_⟩
    obtain ⟨f, -, h4, h5⟩ := forall2_right h2 _ hx
    have h6 : name = f.1 := h4.1
    rw [h6]; exact h5
  refine ⟨r, hr, fun j => ⟨⟨k0, fun k hk => ?_⟩, fun k d hd' => ?_⟩⟩
  · obtain ⟨ds', e, -⟩ := big j k hk
    exact ⟨ds', e⟩
  · obtain ⟨ds', e1, e2⟩ := big j (max k k0) (le_max_right _ _)
    rw [C38_stack structs _ r k _ (by rw [hd']; simp) (le_max_left _ _), hd'] at e1
    exact ⟨ds', Outcome.ok.inj e1, e2⟩

/-- **C127.** That the programs fit together is needed: after the save of a program that does not have a field, a program in which the field is not an
`Option` cannot load the file. -/
theorem C127_required (ht : TomlLike limit cd) (hs : ∀ n, Survives (.struct (structs n))) (fs fs' : List (String × Ty)) (hf : Survives (.struct fs))
    (hn : (fs'.map Prod.fst).Nodup) (name : String) (t : Ty) (hmem : (name, t) ∈ fs') (hreq : ∀ u, t ≠ .option u) (hno : name ∉ fs.map Prod.fst)
    (ds : List (String × Data)) (hd : HasType structs (.struct fs) (.struct ds))
    (v : Value) (hv : ser (.struct ds) = .ok v) (hdepth : DepthBelow v limit) (w w' : World)
    (hok : (Layer.newFile (textHandler cd) path).writeValue w v = (.ok (), w'))
    (hread : ∀ bs code wr, w.disk (w.locate path) ≠ .file bs (some code) wr) :
    ∃ r, (Layer.newFile (textHandler cd) path).readValue w' = .ok r ∧ ∀ structs' k d, deAt structs' k (.struct fs') r ≠ .ok d := by
  obtain ⟨-, s, r, hr, hom, -, hal, hur⟩ := toml_stored ht (uniqueKeys_ser _ v hv) hdepth hok hread
  have hk := onlyKnown_fewer (onlyKnown_ser hs hd hf v hv) r (fewer_of_alikeOmitting (alikeOmitting_of hom hal))
  refine ⟨r, hr, fun structs' k d hd' => ?_⟩
  obtain ⟨m, rfl⟩ := struct_map hd'
  obtain ⟨ds', rfl, h1⟩ := (de_struct_ok _ _ hn _ (uniqueKeys_map.1 hur).1 _).1 hd'
  obtain ⟨x, -, h2⟩ := forall2_left h1 _ hmem
  have hg : hmGet m name = none := by
    cases hg : hmGet m name with
    | none => rfl
    | some x =>
      cases hk with
      | leaf h => simp at h
      | struct h _ => exact absurd (h name x (by rw [child_key_map]; exact hg)) hno
  have h3 := h2.2
  rw [hg] at h3
  obtain ⟨-, u, e⟩ := missing_cases h3
  exact hreq u e

/-- What a run keeps. -/
structure ShareInv (cd : Codec) (path : OsStr) (structs : Nat → List (String × Ty)) (fields : ι → List (String × Ty)) (w₀ : World)
    (s : (ι → Option (List (String × Data))) × World) (L : Tables ι) : Prop where
  frame : s.2 = { w₀ with disk := s.2.disk } ∧ ∀ t, t ≠ w₀.locate path → s.2.disk t = w₀.disk t
  file : FileHolds cd path structs fields s.2 L.file
  mem : ∀ i, (s.1 i = none ∧ L.mem i = none) ∨
    ∃ ds t, s.1 i = some ds ∧ L.mem i = some t ∧ HasType structs (.struct (fields i)) (.struct ds) ∧ Fills (fields i) t ds

theorem withField_names (ds : List (String × Data)) (name : String) (x : Data) : (withField ds name x).map Prod.fst = ds.map Prod.fst := by
  unfold withField
  rw [List.map_map]
  refine List.map_congr_left fun e _ => ?_
  simp only [Function.comp]
  split <;> rfl

theorem withField_typed {fs : List (String × Ty)} {ds : List (String × Data)} {name : String} {t : Ty} {x : Data} (hn : (fs.map Prod.fst).Nodup)
    (hd : HasType structs (.struct fs) (.struct ds)) (ht : (name, t) ∈ fs) (hx : HasType structs t x) :
    HasType structs (.struct fs) (.struct (withField ds name x)) := by
  cases hd with
  | struct h1 h2 =>
    refine .struct ((withField_names ds name x).trans h1) fun i f d hf hd => ?_
    unfold withField at hd
    rw [List.getElem?_map, Option.map_eq_some_iff] at hd
    obtain ⟨e, he, rfl⟩ := hd
    have hnm := congrArg (fun l : List String => l[i]?) h1
    simp only [List.getElem?_map, hf, he, Option.map_some, Option.some.injEq] at hnm
    split
    · next h =>
      obtain ⟨fn, ft⟩ := f
      simp only at hnm
      rw [h] at hnm
      subst hnm
      rw [mem_unique hn (List.mem_of_getElem? hf) ht]
      exact hx
    · exact h2 i f e hf he

theorem withField_fills {fs : List (String × Ty)} {ds : List (String × Data)} {t : Table} {name : String} {x : Data} (h : Fills fs t ds) :
    Fills fs (Function.update t name x) (withField ds name x) := by
  refine ⟨(withField_names ds name x).trans h.1, fun n y hy => ?_⟩
  unfold withField at hy
  obtain ⟨e, he, e1⟩ := List.mem_map.1 hy
  split at e1
  · next hn =>
    cases e1
    rw [hn, Function.update_self]
    exact DSame.refl _
  · next hn =>
    subst e1
    rw [Function.update_of_ne hn]
    exact h.2 _ _ he

theorem shareInv_step (ht : TomlLike limit cd)
    (hs : ∀ n, Survives (.struct (structs n))) (hsc : ∀ n, Concrete (.struct (structs n))) (hso : ∀ n, OmitsNone (.struct (structs n)))
    (hf : ∀ i, Survives (.struct (fields i))) (hfc : ∀ i, Concrete (.struct (fields i))) (hfo : ∀ i, OmitsNone (.struct (fields i)))
    (hfit : FitTogether fields) {w₀ : World} {s s' : (ι → Option (List (String × Data))) × World} {a : Act ι} {L : Tables ι}
    (h : ShareInv cd path structs fields w₀ s L) (hstep : ActStep cd path limit structs fields s a s') :
    ShareInv cd path structs fields w₀ s' (L.after fields a) := by
  have nodup : ∀ j, ((fields j).map Prod.fst).Nodup := fun j => by cases hf j; assumption
  cases hstep with
  | @start mem w i ds hd =>
    refine ⟨h.frame, h.file, fun j => ?_⟩
    by_cases hj : j = i
    · subst hj
      have hds : ds.map Prod.fst = (fields j).map Prod.fst := by cases hd; assumption
      refine Or.inr ⟨ds, fieldTable ds, by simp, by simp [Tables.after], hd, hds, fun name x hx => ?_⟩
      rw [fieldTable_mem (by rw [hds]; exact nodup j) hx]
      exact DSame.refl _
    · simpa [Tables.after, Function.update_of_ne hj] using h.mem j
  | @load mem w v k i ds hr hd =>
    refine ⟨h.frame, h.file, fun j => ?_⟩
    by_cases hj : j = i
    · subst hj
      obtain ⟨v', e, hv⟩ := h.file
      dsimp only at e
      rw [hr] at e
      cases e
      obtain ⟨ds', e1, e2⟩ := (hv j).2 k _ hd
      cases e1
      exact Or.inr ⟨ds, L.file, by simp, by simp [Tables.after],
        C118_typed structs (fun n => wellFormed_of_survives (hs n)) _ (wellFormed_of_survives (hf j)) k v (proper_builtin_file path cd w v hr) _ hd, e2⟩
    · simpa [Tables.after, Function.update_of_ne hj] using h.mem j
  | @edit mem w i ds name t x h1 h2 h3 =>
    refine ⟨h.frame, h.file, fun j => ?_⟩
    by_cases hj : j = i
    · subst hj
      rcases h.mem j with ⟨e, -⟩ | ⟨ds', tb, e1, e2, e3, e4⟩
      · dsimp only at e; rw [h1] at e; cases e
      · dsimp only at e1; rw [h1] at e1; cases e1
        exact Or.inr ⟨_, Function.update tb name x, by simp, by simp [Tables.after, e2], withField_typed (nodup j) e3 h2 h3, withField_fills e4⟩
    · simpa [Tables.after, Function.update_of_ne hj] using h.mem j
  | @save mem w w' v i ds h1 h2 h3 h4 =>
    obtain ⟨v', e, -⟩ := h.file
    dsimp only at e
    rcases h.mem i with ⟨e', -⟩ | ⟨ds', tb, e1, e2, e3, e4⟩
    · dsimp only at e'; rw [h1] at e'; cases e'
    dsimp only at e1; rw [h1] at e1; cases e1
    obtain ⟨⟨f1, f2⟩, -⟩ := C57_write cd w path v _ _ h4
    have hfr : w = { w₀ with disk := w.disk } := h.frame.1
    have hl : w.locate = w₀.locate := by rw [hfr]
    refine ⟨⟨?_, fun t ht => ?_⟩, ?_, h.mem⟩
    · show w' = { w₀ with disk := w'.disk }
      rw [f1, hfr]
    · rw [← hl] at ht
      exact (f2 t ht).trans (h.frame.2 t (by rw [← hl]; exact ht))
    · refine fileHolds_congr (C127_save ht hs hsc hso hf hfc hfo hfit i ds e3 v h2 h3 w w' h4 (file_readable e)) fun name => ?_
      simp only [Tables.after, e2, Option.getD_some]
      split
      · next hin =>
        rw [← e4.1] at hin
        obtain ⟨⟨n, x⟩, hx, rfl⟩ := List.mem_map.1 hin
        rw [fieldTable_mem (by rw [e4.1]; exact nodup i) hx]
        exact e4.2 _ _ hx
      · next hin =>
        rw [fieldTable_unknown (by rw [e4.1]; exact hin)]
        exact DSame.refl _

theorem shareInv_run (ht : TomlLike limit cd)
    (hs : ∀ n, Survives (.struct (structs n))) (hsc : ∀ n, Concrete (.struct (structs n))) (hso : ∀ n, OmitsNone (.struct (structs n)))
    (hf : ∀ i, Survives (.struct (fields i))) (hfc : ∀ i, Concrete (.struct (fields i))) (hfo : ∀ i, OmitsNone (.struct (fields i)))
    (hfit : FitTogether fields) {w₀ : World} {s s' : (ι → Option (List (String × Data))) × World} {acts : List (Act ι)}
    (hr : ActRun cd path limit structs fields s acts s') : ∀ {L : Tables ι}, ShareInv cd path structs fields w₀ s L →
      ShareInv cd path structs fields w₀ s' (acts.foldl (Tables.after fields) L) := by
  induction hr with
  | nil s => exact fun h => h
  | cons h1 _ ih => exact fun h => ih (shareInv_step ht hs hsc hso hf hfc hfo hfit h h1)

/-- **C127.** Whatever the programs do and in whatever order: every one of them can load the file, and finds in each of its fields what the log has in the
file; what each holds is what the log has in its memory. Nothing else on the disk changes. -/
theorem C127_history (ht : TomlLike limit cd)
    (hs : ∀ n, Survives (.struct (structs n))) (hsc : ∀ n, Concrete (.struct (structs n))) (hso : ∀ n, OmitsNone (.struct (structs n)))
    (hf : ∀ i, Survives (.struct (fields i))) (hfc : ∀ i, Concrete (.struct (fields i))) (hfo : ∀ i, OmitsNone (.struct (fields i)))
    (hfit : FitTogether fields) (w₀ w : World) (table₀ : Table) (h₀ : FileHolds cd path structs fields w₀ table₀)
    (acts : List (Act ι)) (mem : ι → Option (List (String × Data))) (hr : ActRun cd path limit structs fields (fun _ => none, w₀) acts (mem, w)) :
    FileHolds cd path structs fields w (acts.foldl (Tables.after fields) ⟨table₀, fun _ => none⟩).file ∧
    (∀ i ds, mem i = some ds → ∃ t, (acts.foldl (Tables.after fields) ⟨table₀, fun _ => none⟩).mem i = some t ∧ Fills (fields i) t ds) ∧
    w = { w₀ with disk := w.disk } ∧ (∀ s, s ≠ w₀.locate path → w.disk s = w₀.disk s) := by
  have h := shareInv_run ht hs hsc hso hf hfc hfo hfit hr (L := ⟨table₀, fun _ => none⟩) (w₀ := w₀) ⟨⟨rfl, fun _ _ => rfl⟩, h₀, fun _ => Or.inl ⟨rfl, rfl⟩⟩
  refine ⟨h.file, fun i ds hi => ?_, h.frame⟩
  rcases h.mem i with ⟨e, -⟩ | ⟨ds', t, e1, e2, -, e4⟩
  · dsimp only at e; rw [hi] at e; cases e
  · dsimp only at e1; rw [hi] at e1; cases e1
    exact ⟨t, e2, e4⟩

theorem actRun_append {s s' : (ι → Option (List (String × Data))) × World} {a b : List (Act ι)} (h : ActRun cd path limit structs fields s (a ++ b) s') :
    ∃ t, ActRun cd path limit structs fields s a t ∧ ActRun cd path limit structs fields t b s' := by
  induction a generalizing s with
  | nil => exact ⟨s, .nil s, h⟩
  | cons x a ih =>
    cases h with
    | cons h1 h2 =>
      obtain ⟨t, h3, h4⟩ := ih h2
      exact ⟨t, .cons h1 h3, h4⟩

theorem kept_since (i : ι) (name : String) (acts : List (Act ι)) : ∀ (L : Tables ι) (t : Table), L.mem i = some t →
    (∀ a ∈ acts, a ≠ .load i ∧ (∀ ds, a ≠ .start i ds) ∧ ∀ x, a ≠ .edit i name x) →
    ∃ t', (acts.foldl (Tables.after fields) L).mem i = some t' ∧ t' name = t name := by
  induction acts with
  | nil => exact fun L t h _ => ⟨t, h, rfl⟩
  | cons a acts ih =>
    intro L t h hn
    have hn' := fun a ha => hn a (List.mem_cons_of_mem _ ha)
    obtain ⟨n1, n2, n3⟩ := hn a (List.mem_cons_self ..)
    rw [List.foldl_cons]
    cases a with
    | start j ds =>
      have hj : i ≠ j := by rintro rfl; exact n2 ds rfl
      exact ih _ t (by simpa [Tables.after, Function.update_of_ne hj] using h) hn'
    | load j =>
      have hj : i ≠ j := by rintro rfl; exact n1 rfl
      exact ih _ t (by simpa [Tables.after, Function.update_of_ne hj] using h) hn'
    | edit j nm x =>
      by_cases hj : j = i
      · subst hj
        have hnm : name ≠ nm := by rintro rfl; exact n3 x rfl
        obtain ⟨t', e1, e2⟩ := ih (L.after fields (.edit j nm x)) (Function.update t nm x) (by simp [Tables.after, h]) hn'
        exact ⟨t', e1, by rw [e2, Function.update_of_ne hnm]⟩
      · exact ih _ t (by simpa [Tables.after, Function.update_of_ne (Ne.symm hj)] using h) hn'
    | save j => exact ih _ t (by simpa [Tables.after] using h) hn'

/-- **C127.** When a program saves, every program that loads afterwards finds, in a field that the saver has and did not change since it last loaded, what
was there when the saver loaded (whatever others have saved in between), and `None` in a field that the saver does not have. -/
theorem C127_last_saver (ht : TomlLike limit cd)
    (hs : ∀ n, Survives (.struct (structs n))) (hsc : ∀ n, Concrete (.struct (structs n))) (hso : ∀ n, OmitsNone (.struct (structs n)))
    (hf : ∀ i, Survives (.struct (fields i))) (hfc : ∀ i, Concrete (.struct (fields i))) (hfo : ∀ i, OmitsNone (.struct (fields i)))
    (hfit : FitTogether fields) (w₀ w₁ w : World) (table₀ : Table) (h₀ : FileHolds cd path structs fields w₀ table₀)
    (before between : List (Act ι)) (i : ι) (hi : ∀ a ∈ between, a ≠ .load i ∧ ∀ ds, a ≠ .start i ds) (mem₁ mem : ι → Option (List (String × Data)))
    (hr₁ : ActRun cd path limit structs fields (fun _ => none, w₀) before (mem₁, w₁))
    (hr : ActRun cd path limit structs fields (mem₁, w₁) (.load i :: between ++ [.save i]) (mem, w)) :
    ∃ v₁ v, (Layer.newFile (textHandler cd) path).readValue w₁ = .ok v₁ ∧ (Layer.newFile (textHandler cd) path).readValue w = .ok v ∧
      ∀ j k ds name y, deAt structs k (.struct (fields j)) v = .ok (.struct ds) → (name, y) ∈ ds →
        (name ∉ (fields i).map Prod.fst → y = .none) ∧
        (name ∈ (fields i).map Prod.fst → (∀ x, Act.edit i name x ∉ between) →
          ∀ j' k' ds₁ x, deAt structs k' (.struct (fields j')) v₁ = .ok (.struct ds₁) → (name, x) ∈ ds₁ → DSame x y) := by
  have h1 := shareInv_run ht hs hsc hso hf hfc hfo hfit hr₁ (L := ⟨table₀, fun _ => none⟩) (w₀ := w₀)
    ⟨⟨rfl, fun _ _ => rfl⟩, h₀, fun _ => Or.inl ⟨rfl, rfl⟩⟩
  have h2 := shareInv_run ht hs hsc hso hf hfc hfo hfit hr h1
  obtain ⟨v₁, e1, a1⟩ := h1.file
  obtain ⟨v, e2, a2⟩ := h2.file
  refine ⟨v₁, v, e1, e2, fun j k ds name y hd hy => ?_⟩
  obtain ⟨ds', e3, hfill⟩ := (a2 j).2 k _ hd
  cases e3
  have hy' := hfill.2 name y hy
  rw [List.foldl_append, List.foldl_cons, List.foldl_cons, List.foldl_nil] at hy'
  refine ⟨fun hn => ?_, fun hn hed j' k' ds₁ x hd₁ hx => ?_⟩
  · simp only [Tables.after, if_neg hn] at hy'
    have := hy' []
    simp only [dview, dhead, Option.some.injEq] at this
    cases y <;> simp only [dhead, reduceCtorEq] at this
    rfl
  · obtain ⟨t', e4, e5⟩ := kept_since (fields := fields) i name between (Tables.after fields (before.foldl (Tables.after fields) ⟨table₀, fun _ => none⟩) (.load i))
      (before.foldl (Tables.after fields) ⟨table₀, fun _ => none⟩).file (by simp [Tables.after])
      (fun a ha => ⟨(hi a ha).1, (hi a ha).2, fun x e => hed x (e ▸ ha)⟩)
    have e6 : ∀ L : Tables ι, L.mem i = some t' → (L.after fields (.save i)).file name = t' name := by
      intro L hL
      simp only [Tables.after, if_pos hn, hL, Option.getD_some]
    rw [e6 _ e4, e5] at hy'
    obtain ⟨ds2, e7, hfill₁⟩ := (a1 j').2 k' _ hd₁
    cases e7
    exact DSame.trans (DSame.symm (hfill₁.2 name x hx)) hy'

/-- The file after the turn of one program: its edits, the rest as it was, nothing under the names it does not know. -/
theorem turn_file (i : ι) (edits : List (String × Data)) (L : Tables ι) (name : String) (hn : name ∈ (fields i).map Prod.fst) :
    ((turn i edits).foldl (Tables.after fields) L).file name = (lastEdit edits name).getD (L.file name) := by
  have key : ∀ (edits : List (String × Data)) (L : Tables ι) (t : Table), L.mem i = some t →
      ∃ t', ((edits.map fun e => Act.edit i e.1 e.2).foldl (Tables.after fields) L).mem i = some t' ∧ t' name = (lastEdit edits name).getD (t name) := by
    intro edits
    induction edits with
    | nil => exact fun L t h => ⟨t, h, rfl⟩
    | cons e edits ih =>
      intro L t h
      rw [List.map_cons, List.foldl_cons]
      obtain ⟨t', e1, e2⟩ := ih (L.after fields (.edit i e.1 e.2)) (Function.update t e.1 e.2) (by simp [Tables.after, h])
      refine ⟨t', e1, ?_⟩
      rw [e2]
      unfold lastEdit
      rw [List.reverse_cons, List.find?_append]
      cases List.find? (fun e => e.1 == name) edits.reverse with
      | some e' => rfl
      | none =>
        by_cases hk : e.1 = name
        · simp [hk]
        · simp [hk, Function.update_of_ne (Ne.symm hk)]
  unfold turn
  rw [List.foldl_append, List.foldl_cons, List.foldl_cons, List.foldl_nil]
  obtain ⟨t', e1, e2⟩ := key edits (L.after fields (.load i)) L.file (by simp [Tables.after])
  rw [← e2]
  simp only [Tables.after] at e1 ⊢
  rw [if_pos hn, e1, Option.getD_some]

/-- **C127.** If the programs take turns and all who do have the field, no change to it is lost: every program that loads afterwards finds the last change
there, or what was there at first. -/
theorem C127_taking_turns (ht : TomlLike limit cd)
    (hs : ∀ n, Survives (.struct (structs n))) (hsc : ∀ n, Concrete (.struct (structs n))) (hso : ∀ n, OmitsNone (.struct (structs n)))
    (hf : ∀ i, Survives (.struct (fields i))) (hfc : ∀ i, Concrete (.struct (fields i))) (hfo : ∀ i, OmitsNone (.struct (fields i)))
    (hfit : FitTogether fields) (w₀ w : World) (table₀ : Table) (h₀ : FileHolds cd path structs fields w₀ table₀)
    (turns : List (ι × List (String × Data))) (mem : ι → Option (List (String × Data)))
    (hr : ActRun cd path limit structs fields (fun _ => none, w₀) (turns.flatMap fun t => turn t.1 t.2) (mem, w))
    (name : String) (hknown : ∀ t ∈ turns, name ∈ (fields t.1).map Prod.fst) :
    ∃ v, (Layer.newFile (textHandler cd) path).readValue w = .ok v ∧
      ∀ j k ds y, deAt structs k (.struct (fields j)) v = .ok (.struct ds) → (name, y) ∈ ds →
        DSame ((lastEdit (turns.flatMap Prod.snd) name).getD (table₀ name)) y := by
  obtain ⟨⟨v, h1, h2⟩, -⟩ := C127_history ht hs hsc hso hf hfc hfo hfit w₀ w table₀ h₀ _ mem hr
  refine ⟨v, h1, fun j k ds y hd hy => ?_⟩
  obtain ⟨ds', e, hfill⟩ := (h2 j).2 k _ hd
  cases e
  have hy' := hfill.2 name y hy
  have key : ∀ (turns : List (ι × List (String × Data))) (L : Tables ι), (∀ t ∈ turns, name ∈ (fields t.1).map Prod.fst) →
      ((turns.flatMap fun t => turn t.1 t.2).foldl (Tables.after fields) L).file name = (lastEdit (turns.flatMap Prod.snd) name).getD (L.file name) := by
    intro turns
    induction turns with
    | nil => exact fun L _ => rfl
    | cons t turns ih =>
      intro L hk
      rw [List.flatMap_cons, List.foldl_append, ih _ (fun t ht => hk t (List.mem_cons_of_mem _ ht)), turn_file _ _ _ _ (hk t (List.mem_cons_self ..)),
        List.flatMap_cons]
      unfold lastEdit
      rw [List.reverse_append, List.find?_append]
      cases List.find? (fun e => e.1 == name) (turns.flatMap Prod.snd).reverse <;> rfl
  rw [key _ _ hknown] at hy'
  exact hy'

/-! ## The program and the tool that knows only a part of its settings -/

/-- The program (`true`) knows `proxy` and `a`, the tool (`false`) only `a`. -/
def exShare : Bool → List (String × Ty) := fun b => if b then exWhole else exTool

theorem exShare_cases (i : Bool) (f : String × Ty) (hf : f ∈ exShare i) : (f.1 = "a" ∧ f.2 = .string) ∨ (i = true ∧ f.1 = "proxy" ∧ f.2 = .option .string) := by
  cases i <;> simp [exShare, exTool, exWhole] at hf
  · subst hf; exact Or.inl ⟨rfl, rfl⟩
  · rcases hf with rfl | rfl
    · exact Or.inr ⟨rfl, rfl, rfl⟩
    · exact Or.inl ⟨rfl, rfl⟩

theorem exShare_survives (i : Bool) : Survives (.struct (exShare i)) := by
  refine .struct (by cases i <;> decide) fun f hf => ?_
  rcases exShare_cases i f hf with ⟨-, h⟩ | ⟨-, -, h⟩ <;> rw [h]
  · exact .string
  · exact .option .string rfl

theorem exShare_concrete (i : Bool) : Concrete (.struct (exShare i)) := by
  refine .struct fun f hf => ?_
  rcases exShare_cases i f hf with ⟨-, h⟩ | ⟨-, -, h⟩ <;> rw [h]
  · exact .leaf (by simp)
  · exact .option (.leaf (by simp))

theorem exShare_omits (i : Bool) : OmitsNone (.struct (exShare i)) := by
  refine .struct (fun f hf => ?_) fun f hf => ?_
  · rcases exShare_cases i f hf with ⟨-, h⟩ | ⟨-, -, h⟩ <;> rw [h]
    · exact Or.inl rfl
    · exact Or.inr ⟨_, rfl⟩
  · rcases exShare_cases i f hf with ⟨-, h⟩ | ⟨-, -, h⟩ <;> rw [h]
    · exact .leaf (by simp)
    · exact .option (.leaf (by simp))

theorem exShare_fit : FitTogether exShare := by
  refine ⟨fun i j name t t' h h' => ?_, fun i j name t h hn => ?_⟩
  · rcases exShare_cases i _ h with ⟨e, h1⟩ | ⟨-, e, h1⟩ <;> rcases exShare_cases j _ h' with ⟨e', h2⟩ | ⟨-, e', h2⟩ <;> simp only at e e' h1 h2 <;>
      subst e <;> first | (exact absurd e' (by decide)) | (rw [h1, h2])
  · rcases exShare_cases i _ h with ⟨e, h1⟩ | ⟨-, e, h1⟩ <;> simp only at e h1 <;> subst e
    · exact absurd (by cases j <;> simp [exShare, exTool, exWhole]) hn
    · exact ⟨_, h1⟩

/-- The program saves a proxy and an `a`; then the tool loads, sets its `a` and saves. The program finds the new `a`, and no proxy. -/
example : ∃ (w₁ w₂ : World) (mem : Bool → Option (List (String × Data))),
    FileHolds exToml (os "/c.toml") (fun _ => []) exShare w₁ (fieldTable [("proxy", .some (.str "q")), ("a", .str "2")]) ∧
    ActRun exToml (os "/c.toml") 80 (fun _ => []) exShare (fun _ => none, w₁) (turn false [("a", .str "3")]) (mem, w₂) ∧
    ∃ v, exTSFile.readValue w₂ = .ok v ∧
      deAt (fun _ => []) 0 (.struct (exShare true)) v = .ok (.struct [("proxy", .none), ("a", .str "3")]) ∧
      (∀ j k ds y, deAt (fun _ => []) k (.struct (exShare j)) v = .ok (.struct ds) → ("proxy", y) ∈ ds → y = .none) ∧
      (∀ j k ds y, deAt (fun _ => []) k (.struct (exShare j)) v = .ok (.struct ds) → ("a", y) ∈ ds → DSame (.str "3") y) ∧
      FileHolds exToml (os "/c.toml") (fun _ => []) exShare w₂
        ((turn false [("a", .str "3")]).foldl (Tables.after exShare) ⟨fieldTable [("proxy", .some (.str "q")), ("a", .str "2")], fun _ => none⟩).file := by
  have hempty : Survives (.struct []) ∧ Concrete (.struct []) ∧ OmitsNone (.struct []) :=
    ⟨.struct (by simp) (by simp), .struct (by simp), .struct (by simp) (by simp)⟩
  obtain ⟨hh0, hd0⟩ := exEd_flat [("proxy", .string "q"), ("a", .string "2")] (by simp)
  obtain ⟨w1, hok1, hr1, hw1⟩ := exTS_step (w := exDisk) ⟨rfl, rfl, [], Or.inr rfl⟩ (v := exTSOld) (r := exTSOld) rfl hh0 (by
    rw [show prune exTSOld = exTSOld from rfl]
    simp only [exTSOld, docOf, List.attach, List.attachWith, List.pmap, List.map]; rfl)
  obtain ⟨hh, hd⟩ := exEd_flat [("a", .string "3")] (by simp)
  obtain ⟨w2, hok2, hr2, -⟩ := exTS_step hw1 (v := .map [("a", .string "3")]) (r := .map [("a", .string "3")]) rfl hh (by
    rw [show prune (.map [("a", .string "3")]) = .map [("a", .string "3")] from rfl]
    simp only [docOf, List.attach, List.attachWith, List.pmap, List.map]; rfl)
  have typed : HasType (fun _ => []) (.struct (exShare true)) (.struct [("proxy", .some (.str "q")), ("a", .str "2")]) := by
    refine .struct rfl fun i f d hf hd => ?_
    match i with
    | 0 => cases hf; cases hd; exact .some (.string _)
    | 1 => cases hf; cases hd; exact .string _
    | i + 2 => cases hf
  have h₁ := C127_save (exToml_like 80) (structs := fun _ => []) (fun _ => hempty.1) (fun _ => hempty.2.1) (fun _ => hempty.2.2) exShare_survives
    exShare_concrete exShare_omits exShare_fit true _ typed exTSOld (by rfl) hd0 exDisk w1 hok1 (by
      intro bs code wr h
      cases h)
  have run : ActRun exToml (os "/c.toml") 80 (fun _ => []) exShare ((fun _ => none), w1) (turn false [("a", .str "3")])
      (Function.update (Function.update (fun _ => none) false (some [("a", .str "2")])) false (some [("a", .str "3")]), w2) := by
    refine .cons (.load (k := 0) (v := exTSOld) (ds := [("a", .str "2")]) false hr1 (by rfl)) (.cons
      (.edit (t := .string) (ds := [("a", .str "2")]) false (by simp) (by simp [exShare, exTool]) (.string _))
      (.cons (.save (ds := [("a", .str "3")]) (v := .map [("a", .string "3")]) false (by simp [withField]) (by rfl) hd hok2) (.nil _)))
  have hist := C127_history (exToml_like 80) (structs := fun _ => []) (fun _ => hempty.1) (fun _ => hempty.2.1) (fun _ => hempty.2.2) exShare_survives
    exShare_concrete exShare_omits exShare_fit w1 w2 _ h₁ _ _ run
  obtain ⟨v1, v2, -, e2, last⟩ := C127_last_saver (exToml_like 80) (structs := fun _ => []) (fun _ => hempty.1) (fun _ => hempty.2.1) (fun _ => hempty.2.2)
    exShare_survives exShare_concrete exShare_omits exShare_fit w1 w1 w2 _ h₁ [] [.edit false "a" (.str "3")] false
    (by simp) (fun _ => none) _ (.nil _) run
  obtain ⟨v3, e3, turns⟩ := C127_taking_turns (exToml_like 80) (structs := fun _ => []) (fun _ => hempty.1) (fun _ => hempty.2.1) (fun _ => hempty.2.2)
    exShare_survives exShare_concrete exShare_omits exShare_fit w1 w2 _ h₁ [(false, [("a", .str "3")])] _ run "a" (by simp [exShare, exTool])
  rw [show (Layer.newFile (textHandler exToml) (os "/c.toml")).readValue w2 = _ from hr2] at e2 e3
  cases e2
  cases e3
  exact ⟨w1, w2, _, h₁, run, _, hr2, by rfl, fun j k ds y h hy => (last j k ds "proxy" y h hy).1 (by simp [exShare, exTool]),
    fun j k ds y h hy => turns j k ds y h hy, hist.1⟩

/-- A tool that insists on a port cannot read what the other tool saved. -/
example : ∃ (w : World) (r : Value), exTSFile.readValue w = .ok r ∧ deAt (fun _ => []) 0 (.struct exTool) r = .ok (.struct [("a", .str "3")]) ∧
    ∀ structs k d, deAt structs k (.struct [("a", .string), ("port", .string)]) r ≠ .ok d := by
  obtain ⟨hh, hd⟩ := exEd_flat [("a", .string "3")] (by simp)
  obtain ⟨w2, hok2, hr2, -⟩ := exTS_step (w := exDisk) ⟨rfl, rfl, [], Or.inr rfl⟩ (v := .map [("a", .string "3")]) (r := .map [("a", .string "3")]) rfl hh (by
    rw [show prune (.map [("a", .string "3")]) = .map [("a", .string "3")] from rfl]
    simp only [docOf, List.attach, List.attachWith, List.pmap, List.map]; rfl)
  obtain ⟨r, h1, h2⟩ := C127_required (exToml_like 80) (structs := fun _ => []) (path := os "/c.toml") (fun _ => .struct (by simp) (by simp)) exTool
    [("a", .string), ("port", .string)] (exShare_survives false) (by decide) "port" .string (by simp) (fun u h => nomatch h) (by decide) [("a", .str "3")]
    (.struct rfl fun i f d hf hd => by
      match i with
      | 0 => cases hf; cases hd; exact .string _
      | i + 1 => cases hf) _ (by rfl) hd exDisk w2 hok2 (by
      intro bs code wr h
      cases h)
  rw [show (Layer.newFile (textHandler exToml) (os "/c.toml")).readValue w2 = _ from hr2] at h1
  cases h1
  exact ⟨w2, _, hr2, by rfl, h2⟩

end Verif.Props
