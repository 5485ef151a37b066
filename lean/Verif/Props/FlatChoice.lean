import Verif.Props.FlatOption
import Verif.Props.Blind
/-!
# C144: flattened enums
-/
namespace Verif.Props
open Verif Verif.Spec

/-- **C91**, internally tagged enums, read from a list: the first element is the tag, its text is the name of a variant, no other element contains a 128-bit integer, and that variant is
read from the other elements. -/
theorem C91_tagged_list (tag : String) (vs : List Variant) (hs : ∀ va ∈ vs, ShapeFine va.shape) (xs : List Value) (hu : UniqueKeys (.array xs)) (d : Data) :
    (Reader.tagged tag vs).direct (.array xs) = .ok d ↔
      ∃ x rest name va, xs = x :: rest ∧ x.tryInto .string = .ok name ∧ vs.find? (fun a => a.name == name) = some va ∧ (∀ y ∈ rest, ¬ Holds128 y) ∧ RestReads va (.array rest) d := by
  cases xs with
  | nil => exact ⟨fun h => (nomatch h), by rintro ⟨x, rest, name, va, h, -⟩; cases h⟩
  | cons x rest =>
    obtain ⟨-, hur⟩ := unique_cons hu
    obtain ⟨b1, b2⟩ := C91_buffer (.array rest) hur
    have h128 : Holds128 (.array rest) ↔ ∃ y ∈ rest, Holds128 y := by
      rw [← not_iff_not, ← no128_iff, no128_array]
      simp only [no128_iff, not_exists, not_and]
    show ((Outcome.ofExcept (x.tryInto .string) >>= findVariant vs) >>= fun va => buffer (.array rest) >>= fun r => taggedVariant va r) = _ ↔ _
    simp only [bind_eq_ok]
    constructor
    · rintro ⟨va, ⟨name, h1, h2⟩, r, h3, h4⟩
      have hf := findVariant_ok.1 h2
      by_cases hh : Holds128 (.array rest)
      · obtain ⟨e, he⟩ := b2 hh; rw [he] at h3; cases h3
      · rw [b1 hh] at h3; cases h3
        exact ⟨x, rest, name, va, rfl, ofExcept_ok.1 h1, hf, fun y hy h => hh (h128.2 ⟨y, hy, h⟩), (taggedVariant_iff (hs va (List.mem_of_find?_eq_some hf)) hur).1 h4⟩
    · rintro ⟨x', rest', name, va, he, h1, h2, h3, h4⟩
      cases he
      have hh : ¬ Holds128 (.array rest) := fun h => by obtain ⟨y, hy, h⟩ := h128.1 h; exact h3 y hy h
      exact ⟨va, ⟨name, ofExcept_ok.2 h1, findVariant_ok.2 h2⟩, _, b1 hh, (taggedVariant_iff (hs va (List.mem_of_find?_eq_some h2)) hur).2 h4⟩

theorem chosen_name {vs : List Variant} {e : String × Value} {d : Data} (h : Chosen vs e d) : chosenName d = some e.1 ∧ NamesVariant vs e.1 := by
  obtain ⟨va, h1, h2, h3⟩ := h
  refine ⟨?_, va, h1, h2⟩
  rw [← h2]
  cases h3 <;> rfl

theorem chosen_unique {vs : List Variant} (hf : FlatFine (.choice vs)) {e : String × Value} (hu : UniqueKeys e.2) {c d : Data} (h : Chosen vs e c) (h' : Chosen vs e d) : c = d := by
  have h1 := (choice_iff hf.1 hf.2 hu).2 h
  have h2 := (choice_iff hf.1 hf.2 hu).2 h'
  rw [h1] at h2
  cases h2
  rfl

theorem firstNamed_exists {vs : List Variant} {m : Entries} {e : String × Value} (he : e ∈ m) (hn : NamesVariant vs e.1) : ∃ a l, FirstNamed vs m a l := by
  cases h : takeVariant vs [] m with
  | none => exact absurd hn (((takeVariant_iff vs m []).2.1 h) e he)
  | some q =>
    obtain ⟨l, h1, -⟩ := ((takeVariant_iff vs m []).1 q.1 q.2).1 h
    exact ⟨_, _, h1⟩

/-- The entry put first. -/
theorem put_first {m : Entries} {e : String × Value} (he : e ∈ m) : ∃ m' : Entries, (e :: m').Perm m := by
  obtain ⟨l1, l2, rfl⟩ := List.append_of_mem he
  exact ⟨l1 ++ l2, List.perm_middle.symm⟩

theorem without_first {e : String × Value} {m : Entries} {ks : List String} (h : e.1 ∉ ks) : without (.map (e :: m)) ks = e :: without (.map m) ks := by
  rw [without_map, without_map, List.filter_cons_of_pos]
  simpa using h

/-- **C144.** A struct with a flattened enum, read from a map whose entries may come in any order: what can be got is exactly the own fields together with *any* of the variants
that are named by an entry and can be read from it. -/
theorem C144_orders (fs : List RField) (hf : (fs.map RField.name).Nodup) (n : String) (vs : List Variant) (hv : FlatFine (.choice vs)) (m : Entries) (hu : UniqueKeys (.map m)) (d : Data) :
    (∃ m', m'.Perm m ∧ readFlat fs [(n, .choice vs)] (.map m') = .ok d) ↔
      ∃ ds c e, d = .struct (ds ++ [(n, c)]) ∧ OwnReads fs (.map m) ds ∧ (∀ k y, k ∉ fs.map RField.name → child (.map m) (.key k) = some y → ¬ Holds128 y) ∧
        e ∈ m ∧ e.1 ∉ fs.map RField.name ∧ Chosen vs e c := by
  have hfine : ∀ p ∈ [(n, FlatPart.choice vs)], FlatFine p.2 := by intro p hp; rw [List.mem_singleton] at hp; subst hp; exact hv
  have hn := (uniqueKeys_map.1 hu).1
  constructor
  · rintro ⟨m', hm, hd⟩
    obtain ⟨ds, ps, rfl, h1, h2, h3⟩ := (C143_flatten fs hf _ hfine (.map m') (perm_unique hm hu) rfl d).1 hd
    cases h3 with
    | choice a1 a2 a3 =>
      cases a3
      have he := mem_without.1 (firstNamed_sub a1).2
      refine ⟨ds, _, _, rfl, perm_own hm.symm (perm_nodup hm hn) h1, fun k y hk hy => h2 k y hk ?_, hm.mem_iff.1 he.1, he.2, a2⟩
      rw [child_key_map] at hy ⊢
      rw [perm_get hm hn]; exact hy
  · rintro ⟨ds, c, e, rfl, h1, h2, he, hk, hc⟩
    obtain ⟨m', hm⟩ := put_first he
    refine ⟨e :: m', hm, (C143_flatten fs hf _ hfine (.map (e :: m')) (perm_unique hm hu) rfl _).2 ⟨ds, _, rfl, perm_own hm hn h1, fun k y hk hy => h2 k y hk ?_, ?_⟩⟩
    · rw [child_key_map] at hy ⊢
      rw [← perm_get hm hn]; exact hy
    · rw [without_first hk]
      exact .choice ⟨[], _, rfl, (chosen_name hc).2, by simp, rfl⟩ hc (.nil _)

/-- **C144.** So if the settings can be read, they depend on the iteration order of the hash map exactly if two entries name variants. -/
theorem C144_order (fs : List RField) (hf : (fs.map RField.name).Nodup) (n : String) (vs : List Variant) (hv : FlatFine (.choice vs)) (m : Entries) (hu : UniqueKeys (.map m)) (d : Data)
    (hd : readFlat fs [(n, .choice vs)] (.map m) = .ok d) :
    (∀ m', m'.Perm m → readFlat fs [(n, .choice vs)] (.map m') = .ok d) ↔
      ∀ a ∈ m, ∀ b ∈ m, a.1 ∉ fs.map RField.name → b.1 ∉ fs.map RField.name → NamesVariant vs a.1 → NamesVariant vs b.1 → a.1 = b.1 := by
  have hfine : ∀ p ∈ [(n, FlatPart.choice vs)], FlatFine p.2 := by intro p hp; rw [List.mem_singleton] at hp; subst hp; exact hv
  have hn := (uniqueKeys_map.1 hu).1
  have key : ∀ m', m'.Perm m → ∀ d', readFlat fs [(n, .choice vs)] (.map m') = .ok d' → ∃ ds c e, d' = .struct (ds ++ [(n, c)]) ∧ OwnReads fs (.map m) ds ∧
      e ∈ m ∧ e.1 ∉ fs.map RField.name ∧ Chosen vs e c := by
    intro m' hm d' h
    obtain ⟨ds, c, e, h1, h2, -, h3⟩ := (C144_orders fs hf n vs hv m hu d').1 ⟨m', hm, h⟩
    exact ⟨ds, c, e, h1, h2, h3⟩
  constructor
  · intro hall a ha b hb hka hkb hna hnb
    have first : ∀ a ∈ m, a.1 ∉ fs.map RField.name → NamesVariant vs a.1 → ∃ ds c, d = .struct (ds ++ [(n, c)]) ∧ chosenName c = some a.1 ∧ ds.map Prod.fst = fs.map RField.name := by
      intro a ha hka hna
      obtain ⟨m', hm⟩ := put_first ha
      obtain ⟨ds, ps, rfl, h1, h2, h3⟩ := (C143_flatten fs hf _ hfine (.map (a :: m')) (perm_unique hm hu) rfl d).1 (hall _ hm)
      rw [without_first hka] at h3
      cases h3 with
      | choice a1 a2 a3 =>
        cases a3
        refine ⟨ds, _, rfl, ?_, own_names h1⟩
        obtain ⟨pre, post, e1, e2, e3, -⟩ := a1
        cases pre with
        | nil => cases e1; exact (chosen_name a2).1
        | cons x pre => rw [List.cons_append, List.cons.injEq] at e1; exact absurd hna (e3 a (by simp [e1.1]))
    obtain ⟨ds, c, h1, h2, h3⟩ := first a ha hka hna
    obtain ⟨ds', c', h1', h2', h3'⟩ := first b hb hkb hnb
    rw [h1] at h1'
    simp only [Data.struct.injEq] at h1'
    have := (List.append_inj' h1' rfl).2
    simp only [List.cons.injEq, Prod.mk.injEq, true_and, and_true] at this
    rw [this, h2'] at h2
    simpa using h2.symm
  · intro hone m' hm
    obtain ⟨ds, ps, rfl, h1, h2, h3⟩ := (C143_flatten fs hf _ hfine (.map m) hu rfl d).1 hd
    cases h3 with
    | @choice _ _ _ _ e c _ _ a1 a2 a3 =>
      cases a3
      have he := mem_without.1 (firstNamed_sub a1).2
      have he' : e ∈ without (.map m') (fs.map RField.name) := mem_without.2 ⟨hm.mem_iff.2 he.1, he.2⟩
      obtain ⟨b, l, hb⟩ := firstNamed_exists he' (chosen_name a2).2
      have hbm := mem_without.1 (firstNamed_sub hb).2
      have hbe : b = e := by
        have hbm' := hm.mem_iff.1 hbm.1
        have hk : b.1 = e.1 := by
          obtain ⟨pre, post, -, e2, -⟩ := hb
          exact hone b hbm' e he.1 hbm.2 he.2 e2 (chosen_name a2).2
        exact List.inj_on_of_nodup_map hn hbm' he.1 hk
      subst hbe
      refine (C143_flatten fs hf _ hfine (.map m') (perm_unique hm hu) rfl _).2 ⟨ds, _, rfl, perm_own hm hn h1, fun k y hk hy => h2 k y hk ?_, .choice hb a2 (.nil _)⟩
      rw [child_key_map] at hy ⊢
      rw [← perm_get hm hn]; exact hy

/-- **C144.** A layer cannot replace a variant chosen below by another one: the entry of the layer below is still there, and for every variant that is named in some layer, high or low,
there is an order of the built map in which that is the one the settings have (if they can be read at all). -/
theorem C144_layers (b : Build) (fm : Formats) (calls : List RegCall) (w : World) (skip : Bool) (m : Entries)
    (h : (register b fm calls).buildValue w skip = .ok (.map m)) (hp : ∀ e ∈ firsts (offers b fm calls), Proper e.2)
    (fs : List RField) (hf : (fs.map RField.name).Nodup) (n : String) (vs : List Variant) (parts : List (String × FlatPart))
    (hfine : ∀ p ∈ (n, FlatPart.choice vs) :: parts, FlatFine p.2)
    (k : String) (hk : k ∉ fs.map RField.name) (hn : NamesVariant vs k) (hs : entriesAt w (firsts (offers b fm calls)) k ≠ []) :
    ∃ m', m'.Perm m ∧ ∀ d, readFlat fs ((n, .choice vs) :: parts) (.map m') = .ok d →
      ∃ ds c ps, d = .struct (ds ++ (n, c) :: ps) ∧ ds.map Prod.fst = fs.map RField.name ∧ chosenName c = some k := by
  obtain ⟨-, hvu⟩ := C08_map b fm calls w skip _ h
  have hu := hvu hp
  have hnd := (uniqueKeys_map.1 hu).1
  have hc : child (.map m) (.key k) ≠ none := by
    rw [build_ok h, child_fold k _ hp Value.newMap rfl]
    show (entriesAt w (firsts (offers b fm calls)) k).foldl overlay none ≠ none
    intro e
    rcases List.eq_nil_or_concat (entriesAt w (firsts (offers b fm calls)) k) with h0 | ⟨pre, y, h0⟩
    · exact hs h0
    · rw [h0, List.concat_eq_append, List.foldl_append, List.foldl_cons, List.foldl_nil] at e
      unfold overlay at e
      split at e
      · cases e
      · split at e <;> cases e
  obtain ⟨x, hx⟩ := Option.ne_none_iff_exists'.1 hc
  obtain ⟨m', hm⟩ := put_first ((child_mem hnd).1 hx)
  refine ⟨_, hm, fun d hd => ?_⟩
  obtain ⟨ds, ps, rfl, h1, -, h3⟩ := (C143_flatten fs hf _ hfine (.map ((k, x) :: m')) (perm_unique hm hu) rfl d).1 hd
  rw [without_first hk] at h3
  cases h3 with
  | choice a1 a2 a3 =>
    refine ⟨ds, _, _, rfl, own_names h1, ?_⟩
    obtain ⟨pre, post, e1, e2, e3, -⟩ := a1
    cases pre with
    | nil => cases e1; exact (chosen_name a2).1
    | cons y pre => rw [List.cons_append, List.cons.injEq] at e1; exact absurd hn (e3 (k, x) (by simp [e1.1]))

theorem left_child {v : Value} (hm : v.isMap = true) {ks : List String} {k : String} (hk : k ∉ ks) : child (.map (without v ks)) (.key k) = child v (.key k) := by
  cases v with
  | map m =>
    rw [child_key_map, child_key_map, without_map, hmGet_filter_keys (m := m) (fun k => !ks.contains k) k, if_pos]
    simpa using hk
  | _ => cases hm

/-- **C144.** With a tag (`#[serde(tag = "…")]`) it is otherwise: the highest layer that has the tag decides which variant it is. -/
theorem C144_tag (b : Build) (fm : Formats) (calls : List RegCall) (w : World) (skip : Bool) (v : Value)
    (h : (register b fm calls).buildValue w skip = .ok v) (hp : ∀ e ∈ firsts (offers b fm calls), Proper e.2)
    (fs : List RField) (hf : (fs.map RField.name).Nodup) (n tag : String) (vs : List Variant) (hv : ∀ va ∈ vs, ShapeFine va.shape)
    (parts : List (String × FlatPart)) (hfine : ∀ p ∈ parts, FlatFine p.2)
    (htag : tag ∉ fs.map RField.name) (pre : List Value) (s : String) (hs : entriesAt w (firsts (offers b fm calls)) tag = pre ++ [.string s]) (d : Data)
    (hd : readFlat fs ((n, .view (Reader.tagged tag vs)) :: parts) v = .ok d) :
    ∃ ds c ps, d = .struct (ds ++ (n, c) :: ps) ∧ ds.map Prod.fst = fs.map RField.name ∧ chosenName c = some s := by
  obtain ⟨hvm, hvu⟩ := C08_map b fm calls w skip v h
  have hu := hvu hp
  have hc : child v (.key tag) = some (.string s) := (C75_section b fm calls w skip v h hp tag).2.1 pre _ hs rfl
  obtain ⟨ds, ps, rfl, h1, -, h3⟩ := (C143_flatten fs hf _ (by
    intro p hp
    rcases List.mem_cons.1 hp with rfl | hp
    · exact trivial
    · exact hfine p hp) v hu hvm d).1 hd
  cases h3 with
  | view a1 a2 =>
    refine ⟨ds, _, _, rfl, own_names h1, ?_⟩
    have hu' : UniqueKeys (.map (without v (fs.map RField.name))) := by
      cases v with
      | map m => exact unique_without hu _
      | _ => cases hvm
    obtain ⟨x, va, b1, b2, b3⟩ := (C91_tagged_within tag vs hv false _ hu' rfl _).1 a1
    rw [left_child hvm htag, hc] at b1
    cases b1
    cases b2 with
    | name _ _ hfind =>
      have : va.name = s := by simpa using List.find?_some hfind
      rw [← this]
      cases b3 <;> rfl

/-- **C144.** And nothing depends on the order then, if it does not in the contents: this holds for every type that looks at all the entries, tagged or untagged. -/
theorem C144_view (fs : List RField) (hf : (fs.map RField.name).Nodup) (hb : ∀ f ∈ fs, AnyOrder f.reader.direct) (n : String) (r : Reader) (hr : AnyOrder (r.buffered false)) :
    AnyOrder (readFlat fs [(n, .view r)]) := by
  have hfine : ∀ p ∈ [(n, FlatPart.view r)], FlatFine p.2 := by intro p hp; rw [List.mem_singleton] at hp; subst hp; exact trivial
  intro v v' d hu hu' hs hd
  cases v with
  | map m =>
    obtain ⟨m', rfl⟩ := same_map_left hs
    have hm := same_map.1 hs
    obtain ⟨ds, ps, rfl, h1, h2, h3⟩ := (C143_flatten fs hf _ hfine _ hu rfl d).1 hd
    obtain ⟨ds', g1, g2⟩ := blind_fields (dec := fun f => f.reader.direct) hb hs hu hu' (by simpa only [OwnReads, child_key_map] using h1)
    cases h3 with
    | view a1 a2 =>
      cases a2
      obtain ⟨c, c1, c2⟩ := hr _ _ _ (unique_without hu (fs.map RField.name)) (unique_without hu' (fs.map RField.name)) (same_without hs _) a1
      refine ⟨_, (C143_flatten fs hf _ hfine _ hu' rfl _).2 ⟨ds', _, rfl, by simpa only [OwnReads, child_key_map] using g1, fun k y hk hy hh => ?_, .view c1 (.nil _)⟩,
        dsame_struct (forall2_append g2 (.cons ⟨rfl, c2⟩ .nil))⟩
      rw [child_key_map] at hy
      have hne : hmGet m k ≠ none := fun e => by rw [(hm k).1.1 e] at hy; cases hy
      obtain ⟨z, hz⟩ := Option.ne_none_iff_exists'.1 hne
      exact h2 k z hk (by rw [child_key_map]; exact hz) ((holds128_same ((hm k).2 z y hz hy)).2 hh)
  | _ => cases hd

theorem text_newtype {vs : List Variant} {k s : String} {d : Data} (h : Chosen vs (k, .string s) d) : ∃ va ∈ vs, va.name = k ∧ ∃ r, va.shape = .newtype r := by
  obtain ⟨va, h1, h2, h3⟩ := h
  refine ⟨va, h1, h2, ?_⟩
  cases h3 with
  | newtype r d hs h => exact ⟨r, hs⟩
  | unit _ hx => rcases hx with hx | hx <;> cases hx
  | tuple _ _ _ _ hx _ => cases hx
  | struct fs ds hs h => cases h with
    | map _ hm _ => cases hm
    | seq _ _ hv _ => cases hv

/-- **C144.** An environment variable (or any other text) never chooses a variant without content, or one that is a tuple or a struct, whatever its text. -/
theorem C144_env (b : Build) (fm : Formats) (calls : List RegCall) (w : World) (skip : Bool) (v : Value)
    (h : (register b fm calls).buildValue w skip = .ok v) (hp : ∀ e ∈ firsts (offers b fm calls), Proper e.2)
    (fs : List RField) (hf : (fs.map RField.name).Nodup) (n : String) (vs : List Variant) (parts : List (String × FlatPart))
    (hfine : ∀ p ∈ (n, FlatPart.choice vs) :: parts, FlatFine p.2)
    (k : String) (hk : ∀ va ∈ vs, va.name = k → ∀ r, va.shape ≠ .newtype r)
    (pre : List Value) (s : String) (hs : entriesAt w (firsts (offers b fm calls)) k = pre ++ [.string s]) (d : Data)
    (hd : readFlat fs ((n, .choice vs) :: parts) v = .ok d) :
    ∃ ds c ps, d = .struct (ds ++ (n, c) :: ps) ∧ ds.map Prod.fst = fs.map RField.name ∧ chosenName c ≠ some k := by
  obtain ⟨hvm, hvu⟩ := C08_map b fm calls w skip v h
  have hu := hvu hp
  have hc : child v (.key k) = some (.string s) := (C75_section b fm calls w skip v h hp k).2.1 pre _ hs rfl
  obtain ⟨ds, ps, rfl, h1, -, h3⟩ := (C143_flatten fs hf _ hfine v hu hvm d).1 hd
  cases v with
  | map m =>
    cases h3 with
    | @choice _ _ _ _ e _ _ _ a1 a2 a3 =>
      refine ⟨ds, _, _, rfl, own_names h1, fun hne => ?_⟩
      rw [(chosen_name a2).1, Option.some.injEq] at hne
      have he := (mem_without.1 (firstNamed_sub a1).2).1
      have := (child_mem (uniqueKeys_map.1 hu).1).2 he
      obtain ⟨k', x⟩ := e
      simp only at hne this
      subst hne
      rw [hc] at this
      cases this
      obtain ⟨va, h4, h5, r, h6⟩ := text_newtype a2
      exact hk va h4 h5 r h6
  | _ => cases hvm

/-! ## Examples -/

/-- `C91_tagged_list`: `["Off", 1]` chooses `Off`. -/
example : (Reader.tagged "kind" [⟨"Off", .unit⟩]).direct (.array [.string "Off", .integer ⟨1, by decide⟩]) = .ok (.unitVariant "Off") := by
  refine (C91_tagged_list "kind" [⟨"Off", .unit⟩] (by simp [ShapeFine]) _ (by simp [UniqueKeys, UniqueKeysList]) _).2 ⟨_, _, "Off", ⟨"Off", .unit⟩, rfl, rfl, rfl, ?_, .unit rfl⟩
  intro y hy hh
  rw [List.mem_singleton] at hy; subst hy
  obtain ⟨e, he⟩ := (C91_buffer _ (by simp [UniqueKeys])).2 hh
  cases he

/-- `enum Backend { File { path: String }, Db(String), Off }`. -/
def exBackend : List Variant := [⟨"File", .struct [⟨"path", Reader.string, .err (.deserializationError "missing field `path`")⟩]⟩, ⟨"Db", .newtype Reader.string⟩, ⟨"Off", .unit⟩]

theorem exBackend_fine : FlatFine (.choice exBackend) := by
  obtain ⟨-, -, ⟨-, -, -, -, -, hs, -⟩, -⟩ := C91_enum
  refine ⟨by decide, fun va hva => ?_⟩
  simp only [exBackend, List.mem_cons, List.not_mem_nil, or_false] at hva
  rcases hva with rfl | rfl | rfl
  · refine ⟨by decide, fun f hf => ?_⟩
    rw [List.mem_singleton] at hf; subst hf
    exact ⟨hs, by simp⟩
  · exact hs
  · exact trivial

theorem exBackend_parts : ∀ p ∈ [("backend", FlatPart.choice exBackend)], FlatFine p.2 := by
  intro p hp; rw [List.mem_singleton] at hp; subst hp; exact exBackend_fine

/-- A lower layer says `File`, a higher one `Db`. -/
def exSwitch : List RegCall := [RegCall.memory "defaults" (.map [("name", .string "n"), ("File", .map [("path", .string "p")])]), RegCall.memory "user" (.map [("Db", .string "u")])]

def exSwitched : Entries := [("name", .string "n"), ("File", .map [("path", .string "p")]), ("Db", .string "u")]
theorem exSwitched_unique : UniqueKeys (.map exSwitched) := by simp [exSwitched, UniqueKeys, UniqueKeysMap, UniqueKeysEntry]
example : (register exB1 exFormats exSwitch).buildValue exDisk false = .ok (.map exSwitched) := rfl

/-- In this order it is still the file; in another the database. -/
example : readFlat exOptOwn [("backend", .choice exBackend)] (.map exSwitched) = .ok (.struct [("name", .str "n"), ("backend", .structVariant "File" [("path", .str "p")])]) := rfl
example : ∃ m', m'.Perm exSwitched ∧ readFlat exOptOwn [("backend", .choice exBackend)] (.map m') = .ok (.struct [("name", .str "n"), ("backend", .newtypeVariant "Db" (.str "u"))]) := by
  refine (C144_orders exOptOwn (by decide) "backend" exBackend exBackend_fine exSwitched exSwitched_unique _).2
    ⟨[("name", .str "n")], .newtypeVariant "Db" (.str "u"), ("Db", .string "u"), rfl, .cons ⟨rfl, fun x hx => (by cases hx; rfl), fun h => (by cases h)⟩ .nil, ?_, by simp [exSwitched], by decide,
      ⟨"Db", .newtype Reader.string⟩, by simp [exBackend], rfl, .newtype Reader.string _ rfl rfl⟩
  intro k y _ hy
  have hmem := (child_mem (uniqueKeys_map.1 exSwitched_unique).1).1 hy
  have hu := (uniqueKeys_map.1 exSwitched_unique).2 _ hmem
  simp only [exSwitched, List.mem_cons, List.not_mem_nil, or_false, Prod.mk.injEq] at hmem
  intro hh
  obtain ⟨e, he⟩ := (C91_buffer y hu).2 hh
  rcases hmem with ⟨-, rfl⟩ | ⟨-, rfl⟩ | ⟨-, rfl⟩ <;> cases he
example : ¬ ∀ m', m'.Perm exSwitched → readFlat exOptOwn [("backend", .choice exBackend)] (.map m') = .ok (.struct [("name", .str "n"), ("backend", .structVariant "File" [("path", .str "p")])]) := by
  intro hall
  have h := (C144_order exOptOwn (by decide) "backend" exBackend exBackend_fine exSwitched exSwitched_unique _ rfl).1 hall
  exact absurd (h ("File", .map [("path", .string "p")]) (by simp [exSwitched]) ("Db", .string "u") (by simp [exSwitched]) (by decide) (by decide) ⟨_, List.mem_cons_self, rfl⟩
    ⟨⟨"Db", .newtype Reader.string⟩, by simp [exBackend], rfl⟩) (by decide)

theorem exSwitch_proper : ∀ e ∈ firsts (offers exB1 exFormats exSwitch), Proper e.2 := by
  intro e he
  obtain ⟨c, hc, ho⟩ := List.mem_filterMap.1 (mem_firsts he)
  simp only [exSwitch, List.mem_cons, List.not_mem_nil, or_false] at hc
  apply C08_builtin_proper exB1 exFormats c e _ _ ho
  · rcases hc with rfl | rfl <;> trivial
  · rcases hc with rfl | rfl <;> intro n v hv <;> cases hv <;> simp [UniqueKeys, UniqueKeysMap, UniqueKeysEntry]

/-- `C144_layers` on this program, for the variant of the layer below. -/
example : ∃ m', m'.Perm exSwitched ∧ ∀ d, readFlat exOptOwn [("backend", .choice exBackend)] (.map m') = .ok d →
    ∃ ds c ps, d = .struct (ds ++ ("backend", c) :: ps) ∧ ds.map Prod.fst = exOptOwn.map RField.name ∧ chosenName c = some "File" :=
  C144_layers exB1 exFormats exSwitch exDisk false exSwitched rfl exSwitch_proper exOptOwn (by decide) "backend" exBackend [] exBackend_parts "File" (by decide) ⟨_, List.mem_cons_self, rfl⟩
    (by show [Value.map [("path", .string "p")]] ≠ []; simp)

/-- With a tag the layer on top decides. -/
def exTagged : List RegCall := [RegCall.memory "defaults" (.map [("name", .string "n"), ("kind", .string "File"), ("path", .string "p")]), RegCall.memory "user" (.map [("kind", .string "Off")])]
example : ∃ ds c ps, (Data.struct [("name", .str "n"), ("backend", .unitVariant "Off")]) = .struct (ds ++ ("backend", c) :: ps) ∧ ds.map Prod.fst = exOptOwn.map RField.name ∧ chosenName c = some "Off" := by
  refine C144_tag exB1 exFormats exTagged exDisk false _ rfl ?_ exOptOwn (by decide) "backend" "kind" exBackend exBackend_fine.2 [] (by simp) (by decide) [.string "File"] "Off" rfl _ rfl
  intro e he
  obtain ⟨c, hc, ho⟩ := List.mem_filterMap.1 (mem_firsts he)
  simp only [exTagged, List.mem_cons, List.not_mem_nil, or_false] at hc
  apply C08_builtin_proper exB1 exFormats c e _ _ ho
  · rcases hc with rfl | rfl <;> trivial
  · rcases hc with rfl | rfl <;> intro n v hv <;> cases hv <;> simp [UniqueKeys, UniqueKeysMap, UniqueKeysEntry]

/-- `C144_view`: with such a backend. -/
example : AnyOrder (readFlat exOptOwn [("backend", .view (Reader.tagged "kind" exBackend))]) := by
  refine C144_view exOptOwn (by decide) ?_ "backend" _ (C99_tagged (.buffered false) "kind" exBackend exBackend_fine.2 ?_)
  · intro f hf
    rw [exOptOwn, List.mem_singleton] at hf; subst hf
    exact (C99_scalars .direct).2.2.2.2.2.1
  · intro va hva
    simp only [exBackend, List.mem_cons, List.not_mem_nil, or_false] at hva
    rcases hva with rfl | rfl | rfl
    · refine ⟨by decide, fun f hf => ?_⟩
      rw [List.mem_singleton] at hf; subst hf
      exact (C99_scalars (.buffered true)).2.2.2.2.2.1
    · exact (C99_scalars (.buffered true)).2.2.2.2.2.1
    · exact trivial

/-- `C144_env`: a text for `Off` on top; if the text comes first nothing can be read. -/
def exOff : List RegCall := [RegCall.memory "defaults" (.map [("name", .string "n"), ("Db", .string "u")]), RegCall.memory "env" (.map [("Off", .string "yes")])]
example : readFlat exOptOwn [("backend", .choice exBackend)] (.map [("Off", .string "yes"), ("name", .string "n"), ("Db", .string "u")]) = badContent "unit" := rfl
example : ∃ ds c ps, (Data.struct [("name", .str "n"), ("backend", .newtypeVariant "Db" (.str "u"))]) = .struct (ds ++ ("backend", c) :: ps) ∧ ds.map Prod.fst = exOptOwn.map RField.name ∧ chosenName c ≠ some "Off" := by
  refine C144_env exB1 exFormats exOff exDisk false _ rfl ?_ exOptOwn (by decide) "backend" exBackend [] exBackend_parts "Off" ?_ [] "yes" rfl _ rfl
  · intro e he
    obtain ⟨c, hc, ho⟩ := List.mem_filterMap.1 (mem_firsts he)
    simp only [exOff, List.mem_cons, List.not_mem_nil, or_false] at hc
    apply C08_builtin_proper exB1 exFormats c e _ _ ho
    · rcases hc with rfl | rfl <;> trivial
    · rcases hc with rfl | rfl <;> intro n v hv <;> cases hv <;> simp [UniqueKeys, UniqueKeysMap, UniqueKeysEntry]
  · intro va hva hn r
    simp only [exBackend, List.mem_cons, List.not_mem_nil, or_false] at hva
    rcases hva with rfl | rfl | rfl <;> simp at hn ⊢

/-- An optional enum: the bad entry is gone, the other one is left to the map. -/
example : readFlat exOptOwn [("backend", .optChoice exBackend), ("other", .rest Reader.string)] (.map [("Off", .string "yes"), ("name", .string "n"), ("Db", .string "u")]) =
    .ok (.struct [("name", .str "n"), ("backend", .none), ("other", .map [(.str "Db", .str "u")])]) := rfl

end Verif.Props
