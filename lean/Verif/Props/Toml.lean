import Verif.Props.EndToEnd
import Verif.Lemmas.Toml
import Mathlib.Logic.Equiv.List
import Mathlib.Data.Countable.Basic
import Mathlib.Data.Nat.Pairing
/-!
# C84: what saving to TOML does to a value

TOML has no null. For every codec that behaves like TOML (`Spec.TomlLike`): what can be saved at all, what is read back, and what that means
for the layers and for typed structs.
-/
namespace Verif.Props
open Verif Verif.Spec

/-- **C84.** `write_value` on a TOML file layer refuses, without touching the disk, exactly what TOML cannot hold: anything but a map, and a map
with a `None` in a list, a 128-bit kind of integer, or an unsigned integer above `i64::MAX`, at any depth. -/
theorem C84_write {limit : Nat} {cd : Codec} (ht : TomlLike limit cd) (w : World) (path : OsStr) (v : Value) :
    (¬ (v.isMap = true ∧ TomlHolds v) →
      ∃ msg, (Layer.newFile (textHandler cd) path).writeValue w v = (.error (.configLayerError (.serializeError msg)), w)) ∧
    (v.isMap = true ∧ TomlHolds v → ∀ w1, w.openTrunc path = .ok w1 → w.room (w.locate path) = none →
      ∃ w', (Layer.newFile (textHandler cd) path).writeValue w v = (.ok (), w')) := by
  constructor
  · intro h
    cases hr : (Layer.newFile (textHandler cd) path).writeValue w v with
    | mk res w' =>
      rcases (C57_write cd w path v res w' hr).2 with ⟨msg, -, rfl, rfl⟩ | ⟨text, _, hp, -⟩ | ⟨text, _, _, _, hp, -⟩ | ⟨text, _, hp, -⟩
      · exact ⟨msg, rfl⟩
      all_goals exact absurd ((ht.prints v).1 ⟨text, hp⟩) h
  · intro h w1 ho hroom
    obtain ⟨text, hp⟩ := (ht.prints v).2 h
    cases hr : (Layer.newFile (textHandler cd) path).writeValue w v with
    | mk res w' =>
      rcases (C57_write cd w path v res w' hr).2 with ⟨msg, he, -⟩ | ⟨text, _, _, he, -⟩ | ⟨text, _, _, _, _, he, -⟩ | ⟨text, _, _, he, -⟩
      · rw [hp] at he; cases he
      · rw [ho] at he; cases he
      · rw [hroom] at he; cases he
      · exact ⟨w', by rw [he]⟩

theorem toml_stored {limit : Nat} {cd : Codec} (ht : TomlLike limit cd) {w w' : World} {path : OsStr} {v : Value} (hu : UniqueKeys v)
    (hdepth : DepthBelow v limit) (hok : (Layer.newFile (textHandler cd) path).writeValue w v = (.ok (), w'))
    (hread : ∀ bs code wr, w.disk (w.locate path) ≠ .file bs (some code) wr) :
    v.isMap = true ∧ ∃ s r, (Layer.newFile (textHandler cd) path).readValue w' = .ok r ∧ Omitting v s ∧ UniqueKeys s ∧ Alike s r ∧ UniqueKeys r := by
  have hprint : ∃ text, cd.print v.toData = .ok text := by
    rcases (C57_write cd w path v _ w' hok).2 with ⟨msg, -, he, -⟩ | ⟨text, _, hp, -⟩ | ⟨text, _, _, _, hp, -⟩ | ⟨text, _, hp, -⟩
    · cases he
    all_goals exact ⟨text, hp⟩
  obtain ⟨text, hp⟩ := hprint
  obtain ⟨doc, s, hq, hpres, hom, hus⟩ := ht.parses v text hu hdepth hp
  obtain ⟨r, h1, h2, h3⟩ := C66_reads s hus doc hpres
  exact ⟨((ht.prints v).1 ⟨text, hp⟩).1, s, r, C57_read_back cd w w' path v r text doc hok hread hp hq h1, hom, hus, h2, h3⟩

/-- **C84.** Reading back after a successful write: the layer has everything that was written, up to the kind of integers, except the map
entries that were `None`: those are gone. -/
theorem C84_read_back {limit : Nat} {cd : Codec} (ht : TomlLike limit cd) (w w' : World) (path : OsStr) (v : Value) (hu : UniqueKeys v)
    (hdepth : DepthBelow v limit) (hok : (Layer.newFile (textHandler cd) path).writeValue w v = (.ok (), w'))
    (hread : ∀ bs code wr, w.disk (w.locate path) ≠ .file bs (some code) wr) :
    ∃ r, (Layer.newFile (textHandler cd) path).readValue w' = .ok r ∧ AlikeOmitting v r ∧ UniqueKeys r := by
  obtain ⟨-, s, r, h1, h2, -, h4, h5⟩ := toml_stored ht hu hdepth hok hread
  exact ⟨r, h1, alikeOmitting_of h2 h4, h5⟩

/-- **C84.** A caller who follows `get` and `at` cannot tell: every chain of accesses comes to the same, and converts alike to every type. -/
theorem C84_get {v r : Value} (h : AlikeOmitting v r) (p : Path) :
    HeadAlike (head (chain v p)) (head (chain r p)) ∧ ∀ s x, (chain v p).tryInto s = .ok x ↔ (chain r p).tryInto s = .ok x := by
  have none : ∀ u : Value, view u p = none → chain u p = .none := fun u hu => (C18_chain u p).2 p [] (by simp) hu
  have key : HeadAlike (head (chain v p)) (head (chain r p)) := by
    by_cases hn : NullEntry v p
    · rw [(C18_chain v p).1 _ hn.2, none r ((h p).1 hn)]; exact Or.inl rfl
    · rcases (h p).2 hn with ⟨h1, h2⟩ | ⟨a, b, h1, h2, h3⟩
      · rw [none v h1, none r h2]; exact Or.inl rfl
      · rw [(C18_chain v p).1 _ h1, (C18_chain r p).1 _ h2]; exact h3
  exact ⟨key, fun s x => headAlike_tryInto key s x⟩

/-- **C84.** What was read back is stable: it has no `None` entries, so writing it again and reading it loses nothing any more. -/
theorem C84_stable {limit : Nat} {cd : Codec} (ht : TomlLike limit cd) (w w' : World) (path : OsStr) (v r : Value) (h : AlikeOmitting v r)
    (hu : UniqueKeys r) (hdepth : DepthBelow r limit) (hok : (Layer.newFile (textHandler cd) path).writeValue w r = (.ok (), w'))
    (hread : ∀ bs code wr, w.disk (w.locate path) ≠ .file bs (some code) wr) :
    (∀ p, ¬ NullEntry r p) ∧ ∃ r', (Layer.newFile (textHandler cd) path).readValue w' = .ok r' ∧ Alike r r' := by
  have hno : ∀ p, ¬ NullEntry r p := by
    rintro p ⟨hp, hr⟩
    by_cases hn : NullEntry v p
    · rw [(h p).1 hn] at hr; cases hr
    · rcases (h p).2 hn with ⟨-, h2⟩ | ⟨a, b, h1, h2, h3⟩
      · rw [h2] at hr; cases hr
      · rw [h2, Option.some.injEq] at hr
        subst hr
        rcases h3 with rfl | ⟨n, -, h3⟩
        · exact hn ⟨hp, h1⟩
        · cases h3
  obtain ⟨r', h1, h2, -⟩ := C84_read_back ht w w' path r hu hdepth hok hread
  exact ⟨hno, r', h1, fun p => (h2 p).2 (hno p)⟩

/-- **C84.** Saving through a TOML file layer and building again: the new built value shows what was written wherever it is set and no later layer
speaks (a `None` entry that is set is below a list; it is gone); what the old one showed wherever a later layer speaks, or the old file did not
speak and the written value is unset — missing or `None`. -/
theorem C84_save {limit : Nat} {cd : Codec} (ht : TomlLike limit cd) (b : Build) (fm : Formats) (calls : List RegCall)
    (hb : ∀ c ∈ calls, c.BuiltIn) (hmem : ∀ c ∈ calls, ∀ n x, c = .memory n x → UniqueKeys x) (w w' : World)
    (lower upper : List (String × Layer)) (name : String) (path : OsStr)
    (hlayers : firsts (offers b fm calls) = lower ++ (name, .file (textHandler cd) path) :: upper)
    (hplaces : ∀ e ∈ lower ++ upper, ∀ h q, e.2 = .file h q → w.locate q ≠ w.locate path)
    (v : Value) (hu : UniqueKeys v) (hdepth : DepthBelow v limit)
    (hok : (Layer.file (textHandler cd) path).writeValue w v = (.ok (), w'))
    (hread : ∀ bs code wr, w.disk (w.locate path) ≠ .file bs (some code) wr)
    (skip : Bool) (built : Value) (h1 : (register b fm calls).buildValue w skip = .ok built) :
    ∃ built', (register b fm calls).buildValue w' skip = .ok built' ∧
      (∀ p, ¬ Unset v p → (∀ e ∈ upper, ¬ Speaks w e.2 p) →
        (NullEntry v p → view built' p = none) ∧
        (¬ NullEntry v p → (view v p = none ∧ view built' p = none) ∨
          ∃ x y, view v p = some x ∧ view built' p = some y ∧ HeadAlike x y)) ∧
      (∀ p, (∃ e ∈ upper, Speaks w e.2 p) → view built' p = view built p) ∧
      (∀ p, ¬ Speaks w (.file (textHandler cd) path) p → Unset v p → view built' p = view built p) := by
  obtain ⟨hvm, s, r, hr, hom, -, hal, -⟩ := toml_stored ht hu hdepth hok hread
  have hsm : s.isMap = true := by
    rw [← head_map_iff] at hvm ⊢
    have := (hom []).2 (nullEntry_nil v)
    rw [view_nil, view_nil, Option.some.injEq] at this
    rw [this]; exact hvm
  obtain ⟨built', h2, k1, k2, k3⟩ := save_stored b fm calls hb hmem w w' lower upper name cd path hlayers hplaces v s r hsm hok hr hal skip built h1
  refine ⟨built', h2, fun p hs hno => ?_, k2, fun p ho hs => k3 p ho ((unset_iff hom p).1 hs)⟩
  have := k1 p (fun h => hs ((unset_iff hom p).2 h)) hno
  refine ⟨fun hn => ?_, fun hn => ?_⟩
  · rw [(hom p).1 hn] at this
    rcases this with ⟨-, h⟩ | ⟨x, y, h, -⟩
    · exact h
    · cases h
  · rw [(hom p).2 hn] at this
    exact this

/-- **C84.** A `None` saved to the file does not hide what the layers below say, whatever the file said before. -/
theorem C84_none_does_not_hide {limit : Nat} {cd : Codec} (ht : TomlLike limit cd) (b : Build) (fm : Formats) (calls : List RegCall)
    (hb : ∀ c ∈ calls, c.BuiltIn) (hmem : ∀ c ∈ calls, ∀ n x, c = .memory n x → UniqueKeys x) (w w' : World)
    (lower upper : List (String × Layer)) (name : String) (path : OsStr)
    (hlayers : firsts (offers b fm calls) = lower ++ (name, .file (textHandler cd) path) :: upper)
    (hplaces : ∀ e ∈ lower ++ upper, ∀ h q, e.2 = .file h q → w.locate q ≠ w.locate path)
    (v : Value) (hu : UniqueKeys v) (hdepth : DepthBelow v limit)
    (hok : (Layer.file (textHandler cd) path).writeValue w v = (.ok (), w'))
    (hread : ∀ bs code wr, w.disk (w.locate path) ≠ .file bs (some code) wr)
    (skip : Bool) (built' : Value) (h2 : (register b fm calls).buildValue w' skip = .ok built')
    (p : Path) (hunset : Unset v p) (before after : List (String × Layer)) (e : String × Layer) (x : Value)
    (hlower : lower = before ++ e :: after) (hx : e.2.readValue w = .ok x) (hxm : x.isMap = true) (hxs : ¬ Silent x p)
    (hquiet : ∀ a ∈ after ++ upper, ¬ Speaks w a.2 p) : view built' p = view x p := by
  have hothers := save_readings hb hlayers hplaces hok
  obtain ⟨-, s, r, hr, hom, -, hal, -⟩ := toml_stored ht hu hdepth hok hread
  have hproper : ∀ e ∈ firsts (offers b fm calls), Proper e.2 := by
    intro e he
    obtain ⟨c, hc, ho⟩ := List.mem_filterMap.1 (mem_firsts he)
    exact C08_builtin_proper b fm c e (hb c hc) (hmem c hc) ho
  subst hlower
  refine C07_last_speaker b fm calls w' skip built' h2 hproper p before e (after ++ (name, .file (textHandler cd) path) :: upper) x
    (by rw [hlayers]; simp) (by rw [hothers e (by simp)]; exact hx) hxm hxs ?_
  intro a ha
  have hcase : a ∈ after ++ upper ∨ a = (name, .file (textHandler cd) path) := by
    simp only [List.mem_append, List.mem_cons] at ha ⊢
    rcases ha with h | h | h
    · exact Or.inl (Or.inl h)
    · exact Or.inr h
    · exact Or.inl (Or.inr h)
  rcases hcase with h | rfl
  · have hin : a ∈ (before ++ e :: after) ++ upper := by
      simp only [List.mem_append, List.mem_cons] at h ⊢
      rcases h with h | h
      · exact Or.inl (Or.inr (Or.inr h))
      · exact Or.inr h
    rw [speaks_congr (hothers a hin)]; exact hquiet a h
  · rintro ⟨y, hy, -, hys⟩
    have hr' : (Layer.file (textHandler cd) path).readValue w' = .ok r := hr
    rw [hr'] at hy; cases hy
    exact hys (silent_alike hal ((unset_iff hom p).1 hunset))

theorem view_none_append (v : Value) (p q : Path) (h : view v p = none) : view v (p ++ q) = none := by
  induction p generalizing v with
  | nil => cases h
  | cons s p ih =>
    rw [List.cons_append, view_cons]
    rw [view_cons] at h
    cases hc : child v s with
    | none => rfl
    | some x => rw [hc] at h; exact ih x h

/-- **C84.** … whereas the same `None` in a memory layer does hide it. -/
theorem C84_none_in_memory_hides (b : Build) (fm : Formats) (calls : List RegCall) (w : World) (skip : Bool) (built : Value)
    (h : (register b fm calls).buildValue w skip = .ok built) (hproper : ∀ e ∈ firsts (offers b fm calls), Proper e.2)
    (lower upper : List (String × Layer)) (name : String) (v : Value)
    (hlayers : firsts (offers b fm calls) = lower ++ (name, .memory v) :: upper) (hvm : v.isMap = true) (p : Path) (hn : NullEntry v p)
    (hquiet : ∀ a ∈ upper, ¬ Speaks w a.2 p) : view built p = some .none := by
  rw [← hn.2]
  refine C07_last_speaker b fm calls w skip built h hproper p lower _ upper v hlayers rfl hvm ?_ hquiet
  rintro ⟨q, k, r, e, -, h2⟩
  have : view v p = none := by
    rw [e, show q ++ Step.key k :: r = (q ++ [.key k]) ++ r by simp]; exact view_none_append v _ r h2
  rw [hn.2] at this; cases this

/-- **C84.** A typed value (no enum, byte buffer, 128-bit integer, `Value` field or nested `Option`; a `None` only in a field of type
`Option`) that was serialized, saved to TOML and read back deserializes to the same value, however deep recursive structs go. -/
theorem C84_typed {limit : Nat} {cd : Codec} (ht : TomlLike limit cd) (structs : Nat → List (String × Ty))
    (hs : ∀ n, Survives (.struct (structs n))) (hsc : ∀ n, Concrete (.struct (structs n))) (hso : ∀ n, OmitsNone (.struct (structs n)))
    (T : Ty) (hT : Survives T) (hTc : Concrete T) (hTo : OmitsNone T) (d : Data) (hd : HasType structs T d)
    (v : Value) (hv : ser d = .ok v) (hdepth : DepthBelow v limit) (w w' : World) (path : OsStr)
    (hok : (Layer.newFile (textHandler cd) path).writeValue w v = (.ok (), w'))
    (hread : ∀ bs code wr, w.disk (w.locate path) ≠ .file bs (some code) wr) :
    ∃ r, (Layer.newFile (textHandler cd) path).readValue w' = .ok r ∧
      ∃ k0, ∀ k, k0 ≤ k → ∃ d', deAt structs k T r = .ok d' ∧ DSame d d' := by
  have hvu := uniqueKeys_ser d v hv
  obtain ⟨-, s, r, h1, hom, hus, hal, hur⟩ := toml_stored ht hvu hdepth hok hread
  refine ⟨r, h1, ?_⟩
  obtain ⟨k0, h⟩ := back hs hd hT v hv v (Same.refl v) hvu
  refine ⟨k0, fun k hk => ?_⟩
  obtain ⟨d1, e1, e2⟩ := h k hk
  have hpu := uniqueKeys_prune v hvu
  have hnc : ¬ KeyClash structs T (prune v) := fun hh => noClash_ser hs hd hT v hv (clash_prune hh _ v hvu rfl)
  have hpr : deAt structs k T (prune v) = .ok d1 :=
    deAt_prune hso (fun n => wellFormed_of_survives (hs n)) hTo (wellFormed_of_survives hT) k _ v d1 hvu e1
  have hpa : Alike (prune v) r := by
    have hsame := same_of_omitting (omitting_prune' hvu) hom
    intro p
    rw [hsame p]; exact hal p
  obtain ⟨k1, k2⟩ := C66_deserialize structs (fun n => wellFormed_of_survives (hs n)) hsc T (wellFormed_of_survives hT) hTc k (prune v) r
    hpu hur hpa hnc
  obtain ⟨d', e3⟩ := k1.1 ⟨d1, hpr⟩
  exact ⟨d', e3, fun p => (e2 p).trans (k2 d1 d' hpr e3 p)⟩

/-- **C84.** The condition is needed: a `HashMap<String, Option<String>>` with a `None` in it comes back without that key. -/
theorem C84_map_of_options {r : Value} (h : AlikeOmitting (.map [("a", .none)]) r) :
    ser (.map [(.str "a", .none)]) = .ok (.map [("a", .none)]) ∧
    HasType (fun _ => []) (.map .string (.option .string)) (.map [(.str "a", .none)]) ∧
    deAt (fun _ => []) 1 (.map .string (.option .string)) r = .ok (.map []) ∧ ¬ DSame (.map [(.str "a", .none)]) (.map []) := by
  have hr : r = .map [] := by
    have h0 := (h []).2 (nullEntry_nil _)
    rcases h0 with ⟨h0, -⟩ | ⟨a, b, h1, h2, h3⟩
    · cases h0
    · cases h1
      rw [view_nil, Option.some.injEq] at h2
      subst h2
      have hm : head r = .map := (headAlike_map h3).1 rfl
      cases r <;> simp only [head, reduceCtorEq] at hm
      rename_i m
      cases m with
      | nil => rfl
      | cons e m =>
        obtain ⟨k, x⟩ := e
        have : view (.map ((k, x) :: m)) [.key k] ≠ none := by rw [view_key_map, hmGet_cons]; simp [view_nil]
        exfalso
        apply this
        by_cases hn : NullEntry (.map [("a", .none)]) [.key k]
        · exact (h _).1 hn
        · rcases (h _).2 hn with ⟨-, h2⟩ | ⟨a, b, h1, -, -⟩
          · exact h2
          · exfalso
            rw [view_key_map, hmGet_cons] at h1
            by_cases hk : "a" = k
            · subst hk; exact hn ⟨⟨[], "a", rfl⟩, rfl⟩
            · simp [hk] at h1
  subst hr
  refine ⟨rfl, ?_, rfl, ?_⟩
  · exact .map (es := [(.str "a", .none)]) (by simp [KeyHasType]) (by simp) (by intro e he; simp at he; subst he; exact .none _)
  · intro hh
    have := hh [.key (.str "a")]
    simp [dview, dchild, keyOf] at this

/-! ### Such a codec exists -/

/-- The calls that present a value as it is. -/
def docOf (v : Value) : Doc :=
  match v with
  | .none => .none
  | .boolean b => .bool b
  | .integer n => .int .i64 n
  | .longInteger n => .int .i128 n
  | .uInteger n => .int .u64 n
  | .uLongInteger n => .int .u128 n
  | .float x => .f64 x
  | .string s => .str s
  | .array xs => .seq (xs.attach.map fun x => docOf x.1)
  | .map m => .map (m.attach.map fun e => (.str e.1.1, docOf e.1.2))
  termination_by sizeOf v
  decreasing_by
    · have := List.sizeOf_lt_of_mem x.2; simp; omega
    · have := List.sizeOf_lt_of_mem e.2
      have h2 : sizeOf e.1.2 < sizeOf e.1 := by cases e.1; simp
      simp; omega

theorem presents_docOf (v : Value) : Presents v (docOf v) := by
  induction v using Value.ind with
  | array xs ih =>
    rw [docOf]
    refine .array (by simp) fun i x d hx hd => ?_
    simp only [List.map_attach_eq_pmap, List.pmap_eq_map, List.getElem?_map, hx, Option.map_some, Option.some.injEq] at hd
    subst hd
    exact ih x (List.mem_of_getElem? hx)
  | map m ih =>
    rw [docOf]
    refine .map m (List.Perm.refl _) (by simp) (fun i k x k' d hx hd => ?_) (fun i k x k' d hx hd => ?_)
    all_goals
      simp only [List.map_attach_eq_pmap, List.pmap_eq_map, List.getElem?_map, hx, Option.map_some, Option.some.injEq, Prod.mk.injEq] at hd
      obtain ⟨rfl, rfl⟩ := hd
    · exact .str _
    · exact ih (k, x) (List.mem_of_getElem? hx)
  | none => rw [docOf]; exact .none
  | boolean b => rw [docOf]; exact .bool b
  | float x => rw [docOf]; exact .f64 x
  | string x => rw [docOf]; exact .str x
  | integer n => rw [docOf]; exact .int rfl rfl
  | longInteger n => rw [docOf]; exact .int rfl rfl
  | uInteger n => rw [docOf]; exact .int rfl rfl
  | uLongInteger n => rw [docOf]; exact .int rfl rfl

theorem string_countable : Countable String := by
  have : Countable Char := Function.Injective.countable (f := Char.toNat) (fun a b h => Char.ext (UInt32.toNat_inj.1 h))
  exact Function.Injective.countable (f := String.toList) (fun a b h => String.toList_inj.1 h)

theorem raw_countable : Countable FpRaw :=
  Function.Injective.countable (f := fun x : FpRaw => match x with
    | .nan => ((0, false, 0, 0) : Nat × Bool × Nat × Int)
    | .inf s => (1, s, 0, 0)
    | .fin s m e => (2, s, m, e)) (by
      intro a b h
      cases a <;> cases b <;> simp at h ⊢ <;> tauto)

theorem head_countable : Countable Head := by
  have := string_countable
  have := raw_countable
  have : Countable F64 := Subtype.countable
  exact Function.Injective.countable (f := fun x : Head => match x with
    | .none => ((0, 0, .inl (.inl ⟨.nan, trivial⟩)) : Nat × Int × ((F64 ⊕ String) ⊕ Bool))
    | .boolean b => (1, 0, .inr b)
    | .integer n => (2, n.1, .inr true)
    | .longInteger n => (3, n.1, .inr true)
    | .uInteger n => (4, n.1, .inr true)
    | .uLongInteger n => (5, n.1, .inr true)
    | .float x => (6, 0, .inl (.inl x))
    | .string s => (7, 0, .inl (.inr s))
    | .array n => (8, n, .inr true)
    | .map => (9, 0, .inr true)) (by
      intro a b h
      cases a <;> cases b <;> simp at h ⊢
      all_goals first | exact h | exact Subtype.ext h)

mutual
/-- A number for every value, given numbers for scalars and keys. -/
def number (f : Head → Nat) (g : String → Nat) (v : Value) : Nat :=
  match v with
  | .array xs => 3 * numberList f g xs
  | .map m => 3 * numberMap f g m + 1
  | .none => 3 * f .none + 2
  | .boolean b => 3 * f (.boolean b) + 2
  | .integer n => 3 * f (.integer n) + 2
  | .longInteger n => 3 * f (.longInteger n) + 2
  | .uInteger n => 3 * f (.uInteger n) + 2
  | .uLongInteger n => 3 * f (.uLongInteger n) + 2
  | .float x => 3 * f (.float x) + 2
  | .string s => 3 * f (.string s) + 2
  termination_by structural v
def numberList (f : Head → Nat) (g : String → Nat) (xs : List Value) : Nat :=
  match xs with
  | [] => 0
  | x :: r => Nat.pair (number f g x) (numberList f g r) + 1
  termination_by structural xs
def numberMap (f : Head → Nat) (g : String → Nat) (m : List (String × Value)) : Nat :=
  match m with
  | [] => 0
  | e :: r => Nat.pair (numberEntry f g e) (numberMap f g r) + 1
  termination_by structural m
def numberEntry (f : Head → Nat) (g : String → Nat) (e : String × Value) : Nat :=
  match e with
  | (k, v) => Nat.pair (g k) (number f g v)
  termination_by structural e
end

theorem number_inj {f : Head → Nat} {g : String → Nat} (hf : Function.Injective f) (hg : Function.Injective g) (v : Value) :
    ∀ w, number f g v = number f g w → v = w := by
  have leaf : ∀ (v : Value), (∀ xs, v ≠ .array xs) → (∀ m, v ≠ .map m) → number f g v = 3 * f (head v) + 2 := by
    intro v h1 h2
    cases v <;> first | exact absurd rfl (h1 _) | exact absurd rfl (h2 _) | rw [number, head]
  have leaf' : ∀ v w : Value, (∀ xs, v ≠ .array xs) → (∀ m, v ≠ .map m) → number f g v = number f g w → v = w := by
    intro v w h1 h2 h
    rw [leaf v h1 h2] at h
    by_cases g1 : ∃ xs, w = .array xs
    · obtain ⟨xs, rfl⟩ := g1; rw [number] at h; omega
    by_cases g2 : ∃ m, w = .map m
    · obtain ⟨xs, rfl⟩ := g2; rw [number] at h; omega
    rw [leaf w (fun xs e => g1 ⟨xs, e⟩) (fun m e => g2 ⟨m, e⟩)] at h
    have := hf (show f (head v) = f (head w) by omega)
    cases v <;> cases w <;> simp only [head, reduceCtorEq] at this <;>
      first | rfl | (cases this; rfl) | exact absurd rfl (h1 _) | exact absurd rfl (h2 _)
  induction v using Value.ind with
  | array xs ih =>
    intro w h
    cases w with
    | array ys =>
      rw [number, number] at h
      replace h : numberList f g xs = numberList f g ys := by omega
      congr 1
      induction xs generalizing ys with
      | nil => cases ys with
        | nil => rfl
        | cons y ys => rw [numberList, numberList] at h; omega
      | cons x xs ih2 => cases ys with
        | nil => rw [numberList, numberList] at h; omega
        | cons y ys =>
          rw [numberList, numberList, Nat.add_right_cancel_iff, Nat.pair_eq_pair] at h
          rw [ih x (by simp) y h.1, ih2 (fun x hx => ih x (by simp [hx])) ys h.2]
    | map ys => rw [number, number] at h; omega
    | _ => rw [number, number] at h; omega
  | map m ih =>
    intro w h
    cases w with
    | array ys => rw [number, number] at h; omega
    | map ys =>
      rw [number, number] at h
      replace h : numberMap f g m = numberMap f g ys := by omega
      congr 1
      induction m generalizing ys with
      | nil => cases ys with
        | nil => rfl
        | cons y ys => rw [numberMap, numberMap] at h; omega
      | cons x xs ih2 => cases ys with
        | nil => rw [numberMap, numberMap] at h; omega
        | cons y ys =>
          obtain ⟨k, x⟩ := x
          obtain ⟨k', y⟩ := y
          rw [numberMap, numberMap, numberEntry, numberEntry, Nat.add_right_cancel_iff, Nat.pair_eq_pair, Nat.pair_eq_pair] at h
          have hxy : x = y := ih (k, x) (by simp) y h.1.2
          rw [hg h.1.1, hxy, ih2 (fun x hx => ih x (by simp [hx])) ys h.2]
    | _ => rw [number, number] at h; omega
  | _ => intro w h; exact leaf' _ w (by simp) (by simp) h

/-- There is a way to write down every value: different values have different texts. -/
theorem exists_text : ∃ text : Value → String, Function.Injective text := by
  obtain ⟨f, hf⟩ := head_countable.exists_injective_nat
  obtain ⟨g, hg⟩ := string_countable.exists_injective_nat
  refine ⟨fun v => String.ofList (List.replicate (number f g v) 'a'), fun v w h => number_inj hf hg v w ?_⟩
  have := congrArg (fun s : String => s.toList.length) h
  simpa using this

theorem toData_inj (v : Value) : ∀ w : Value, v.toData = w.toData → v = w := by
  induction v using Value.ind with
  | array xs ih =>
    intro w h
    cases w <;> rw [Value.toData, Value.toData] at h <;> try cases h
    rename_i ys
    rw [toDataList_eq, toDataList_eq, Data.seq.injEq] at h
    congr 1
    induction xs generalizing ys with
    | nil => cases ys with
      | nil => rfl
      | cons y ys => simp at h
    | cons x xs ih2 => cases ys with
      | nil => simp at h
      | cons y ys =>
        rw [List.map_cons, List.map_cons, List.cons.injEq] at h
        rw [ih x (by simp) y h.1, ih2 (fun x hx => ih x (by simp [hx])) ys h.2]
  | map xs ih =>
    intro w h
    cases w <;> rw [Value.toData, Value.toData] at h <;> try cases h
    rename_i ys
    rw [toDataEntries_eq, toDataEntries_eq, Data.map.injEq] at h
    congr 1
    induction xs generalizing ys with
    | nil => cases ys with
      | nil => rfl
      | cons y ys => simp at h
    | cons x xs ih2 => cases ys with
      | nil => simp at h
      | cons y ys =>
        obtain ⟨k, x⟩ := x
        obtain ⟨k', y⟩ := y
        simp only [List.map_cons, List.cons.injEq, Prod.mk.injEq, Data.str.injEq] at h
        have hxy : x = y := ih (k, x) (by simp) y h.1.2
        rw [h.1.1, hxy, ih2 (fun x hx => ih x (by simp [hx])) ys h.2]
  | _ =>
    intro w h
    cases w <;> simp only [Value.toData, reduceCtorEq] at h <;> cases h <;> rfl

open Classical in
/-- A TOML-like codec: it writes down the maps TOML can hold, and reads the text back as the map without its `None` entries. -/
noncomputable def exToml : Codec where
  print d := if h : ∃ v : Value, v.toData = d ∧ v.isMap = true ∧ TomlHolds v then .ok (exists_text.choose h.choose) else .error "unsupported"
  parse text := if h : ∃ v : Value, exists_text.choose v = text then .ok (docOf (prune h.choose)) else .error "syntax error"

open Classical in
theorem exToml_print {v : Value} (h1 : v.isMap = true) (h2 : TomlHolds v) : exToml.print v.toData = .ok (exists_text.choose v) := by
  have h : ∃ u : Value, u.toData = v.toData ∧ u.isMap = true ∧ TomlHolds u := ⟨v, rfl, h1, h2⟩
  show (if h : _ then _ else _) = _
  rw [dif_pos h, toData_inj _ _ h.choose_spec.1]

open Classical in
theorem exToml_parse (v : Value) : exToml.parse (exists_text.choose v) = .ok (docOf (prune v)) := by
  have h : ∃ u : Value, exists_text.choose u = exists_text.choose v := ⟨v, rfl⟩
  show (if h : _ then _ else _) = _
  rw [dif_pos h, exists_text.choose_spec h.choose_spec]

open Classical in
/-- TOML-like codecs exist, for every limit. -/
theorem exToml_like (limit : Nat) : TomlLike limit exToml where
  prints v := by
    constructor
    · rintro ⟨text, h⟩
      by_contra hv
      have : ¬ ∃ u : Value, u.toData = v.toData ∧ u.isMap = true ∧ TomlHolds u := by
        rintro ⟨u, h1, h2⟩
        rw [toData_inj u v h1] at h2
        exact hv h2
      have e : exToml.print v.toData = .error "unsupported" := by
        show (if h : _ then _ else _) = _
        rw [dif_neg this]
      rw [e] at h; cases h
    · rintro ⟨h1, h2⟩
      exact ⟨_, exToml_print h1 h2⟩
  parses v text hu _ hp := by
    have hv : v.isMap = true ∧ TomlHolds v := by
      by_contra hv
      have : ¬ ∃ u : Value, u.toData = v.toData ∧ u.isMap = true ∧ TomlHolds u := by
        rintro ⟨u, h1, h2⟩
        rw [toData_inj u v h1] at h2
        exact hv h2
      have e : exToml.print v.toData = .error "unsupported" := by
        show (if h : _ then _ else _) = _
        rw [dif_neg this]
      rw [e] at hp; cases hp
    rw [exToml_print hv.1 hv.2] at hp
    cases hp
    exact ⟨_, prune v, exToml_parse v, presents_docOf _, omitting_prune' hu, uniqueKeys_prune v hu⟩

/-! ### A concrete case: a port, a proxy that is `None`, a list of tags -/

theorem depth_leaf {v : Value} (h : ∀ s, child v s = none) : DepthBelow v 1 := by
  intro p hp
  cases p with
  | nil => simp
  | cons s p => rw [view_cons, h s] at hp; exact absurd rfl hp

theorem depth_node {v : Value} {k : Nat} (h : ∀ s x, child v s = some x → DepthBelow x k) : DepthBelow v (k + 1) := by
  intro p hp
  cases p with
  | nil => simp
  | cons s p =>
    rw [view_cons] at hp
    cases hc : child v s with
    | none => rw [hc] at hp; exact absurd rfl hp
    | some x =>
      rw [hc] at hp
      have := h s x hc p hp
      simp only [List.length_cons]; omega

def exSaved : Value := .map [("port", .integer ⟨80, by decide⟩), ("proxy", .none), ("tags", .array [.string "a"])]

theorem exSaved_holds : exSaved.isMap = true ∧ TomlHolds exSaved := by
  refine ⟨rfl, .map ?_⟩
  intro e he
  simp only [List.mem_cons, List.not_mem_nil, or_false] at he
  rcases he with rfl | rfl | rfl
  · intro _; exact .integer _
  · intro h; exact absurd rfl h
  · intro _; refine .array ?_; intro x hx; simp only [List.mem_singleton] at hx; subst hx; exact .string _

theorem exSaved_unique : UniqueKeys exSaved := by simp [exSaved, UniqueKeys, UniqueKeysMap, UniqueKeysEntry, UniqueKeysList]

theorem exSaved_depth : DepthBelow exSaved 80 := by
  refine depth_mono (k := 3) (depth_node fun s x hx => ?_) (by decide)
  cases s with
  | idx i => cases hx
  | key k =>
    rw [exSaved, child_key_map] at hx
    have := hmGet_mem hx
    simp only [List.mem_cons, List.not_mem_nil, or_false, Prod.mk.injEq] at this
    rcases this with ⟨-, rfl⟩ | ⟨-, rfl⟩ | ⟨-, rfl⟩
    · exact depth_mono (depth_leaf (by rintro (_ | _) <;> rfl)) (by decide)
    · exact depth_mono (depth_leaf (by rintro (_ | _) <;> rfl)) (by decide)
    · refine depth_node fun s x hx => ?_
      cases s with
      | key k => cases hx
      | idx i =>
        have := List.mem_of_getElem? (show [Value.string "a"][i]? = some x from hx)
        simp only [List.mem_singleton] at this
        subst this
        exact depth_leaf (by rintro (_ | _) <;> rfl)

theorem exSaved_null : NullEntry exSaved [.key "proxy"] := ⟨⟨[], "proxy", rfl⟩, by decide⟩

/-- It is saved, and read back without the proxy; `get("proxy")` is `None` before and after. -/
example : ∃ w' r, (Layer.newFile (textHandler exToml) (os "/c.toml")).writeValue exDisk exSaved = (.ok (), w') ∧
    (Layer.newFile (textHandler exToml) (os "/c.toml")).readValue w' = .ok r ∧ view r [.key "proxy"] = none ∧
    view r [.key "tags", .idx 0] = some (.string "a") ∧ head (r.get "proxy") = .none := by
  obtain ⟨w', hok⟩ := (C84_write (exToml_like 80) exDisk (os "/c.toml") exSaved).2 exSaved_holds _ rfl rfl
  obtain ⟨r, hr, ha, -⟩ := C84_read_back (exToml_like 80) exDisk w' (os "/c.toml") exSaved exSaved_unique exSaved_depth hok
    (by intro bs code wr h; cases h)
  refine ⟨w', r, hok, hr, (ha _).1 exSaved_null, ?_, ?_⟩
  · have hn : ¬ NullEntry exSaved [.key "tags", .idx 0] := by rintro ⟨-, h⟩; revert h; decide
    rcases (ha [.key "tags", .idx 0]).2 hn with ⟨h, -⟩ | ⟨a, b, h1, h2, h3⟩
    · cases h
    · rw [h2]
      have : a = .string "a" := by
        have h0 : view exSaved [.key "tags", .idx 0] = some (.string "a") := by decide
        rw [h0] at h1; cases h1; rfl
      subst this
      rcases h3 with rfl | ⟨n, h3, -⟩
      · rfl
      · cases h3
  · have := (C84_get ha [.key "proxy"]).1
    rcases this with h | ⟨n, h, -⟩
    · exact h.symm
    · cases h

/-- `None` in a list, a 128-bit integer, an unsigned integer above `i64::MAX` and a bare scalar are refused. -/
example (w : World) (path : OsStr) : ∀ v ∈ [Value.map [("a", .array [.none])], .map [("a", .longInteger ⟨1, by decide⟩)],
    .map [("a", .uInteger ⟨2 ^ 63, by decide⟩)], .string "a"],
    ∃ msg, (Layer.newFile (textHandler exToml) path).writeValue w v = (.error (.configLayerError (.serializeError msg)), w) := by
  intro v hv
  refine (C84_write (exToml_like 80) w path v).1 ?_
  simp only [List.mem_cons, List.not_mem_nil, or_false] at hv
  rcases hv with rfl | rfl | rfl | rfl
  · rintro ⟨-, h⟩
    cases h with
    | map h =>
      have := h _ (List.mem_singleton.2 rfl) (by simp)
      cases this with
      | array h => cases h .none (by simp)
  · rintro ⟨-, h⟩
    cases h with
    | map h => cases h _ (List.mem_singleton.2 rfl) (by simp)
  · rintro ⟨-, h⟩
    cases h with
    | map h =>
      cases h _ (List.mem_singleton.2 rfl) (by simp) with
      | uInteger h => revert h; decide
  · rintro ⟨h, -⟩; cases h

def exTomlCalls : List RegCall := [.memory "default" (.map [("proxy", .string "p")]), .file "file" (os "/c.toml")]

/-- Over a default proxy: saved to the file, the `None` proxy leaves the default in force … -/
example : ∃ w' built', (Layer.file (textHandler exToml) (os "/c.toml")).writeValue exDisk exSaved = (.ok (), w') ∧
    (register exB1 ⟨exToml, exToml⟩ exTomlCalls).buildValue w' false = .ok built' ∧ view built' [.key "proxy"] = some (.string "p") := by
  obtain ⟨w', hok⟩ := (C84_write (exToml_like 80) exDisk (os "/c.toml") exSaved).2 exSaved_holds _ rfl rfl
  have hb : ∀ c ∈ exTomlCalls, c.BuiltIn := by
    intro c hc
    simp only [exTomlCalls, List.mem_cons, List.not_mem_nil, or_false] at hc
    rcases hc with rfl | rfl <;> trivial
  have hmem : ∀ c ∈ exTomlCalls, ∀ n x, c = .memory n x → UniqueKeys x := by
    intro c hc n x hx
    simp only [exTomlCalls, List.mem_cons, List.not_mem_nil, or_false] at hc
    rcases hc with rfl | rfl <;> cases hx
    simp [UniqueKeys, UniqueKeysMap, UniqueKeysEntry]
  have hplaces : ∀ e ∈ [("default", Layer.memory (.map [("proxy", .string "p")]))] ++ [], ∀ h q, e.2 = .file h q →
      exDisk.locate q ≠ exDisk.locate (os "/c.toml") := by
    intro e he h q hq
    simp at he
    subst he; cases hq
  have hread : ∀ bs code wr, exDisk.disk (exDisk.locate (os "/c.toml")) ≠ .file bs (some code) wr := by intro bs code wr h; cases h
  have hunset : Unset exSaved [.key "proxy"] :=
    ⟨[], "proxy", [], rfl, by intro q hq; rw [List.prefix_nil] at hq; subst hq; rfl, Or.inr (by decide)⟩
  obtain ⟨built', h2, -⟩ := C84_save (exToml_like 80) exB1 ⟨exToml, exToml⟩ exTomlCalls hb hmem exDisk w' _ [] "file" (os "/c.toml") rfl
    hplaces exSaved exSaved_unique exSaved_depth hok hread false (.map [("proxy", .string "p")]) rfl
  refine ⟨w', built', hok, h2, ?_⟩
  exact C84_none_does_not_hide (exToml_like 80) exB1 ⟨exToml, exToml⟩ exTomlCalls hb hmem exDisk w' _ [] "file" (os "/c.toml") rfl hplaces
    exSaved exSaved_unique exSaved_depth hok hread false built' h2 [.key "proxy"] hunset [] [] ("default", .memory (.map [("proxy", .string "p")]))
    (.map [("proxy", .string "p")]) rfl rfl rfl (by
      rintro ⟨q, k, r, e, -, e2⟩
      rcases q with _ | ⟨s, q⟩
      · cases e; revert e2; decide
      · simp at e) (by simp)

/-- … and in a memory layer it hides the default. -/
example : ∃ built, (register exB1 exFormats [.memory "default" (.map [("proxy", .string "p")]), .memory "over" exSaved]).buildValue exDisk false
    = .ok built ∧ view built [.key "proxy"] = some .none := by
  refine ⟨_, rfl, ?_⟩
  refine C84_none_in_memory_hides exB1 exFormats [.memory "default" (.map [("proxy", .string "p")]), .memory "over" exSaved] exDisk false _ rfl ?_ [("default", .memory (.map [("proxy", .string "p")]))] [] "over" exSaved rfl
    rfl _ exSaved_null (by simp)
  intro e he
  have : e = ("default", .memory (.map [("proxy", .string "p")])) ∨ e = ("over", .memory exSaved) := by
    simpa [offers, firsts, RegCall.offer, Layer.newMemory] using he
  rcases this with rfl | rfl
  · intro w v hv; cases hv; simp [UniqueKeys, UniqueKeysMap, UniqueKeysEntry]
  · intro w v hv; cases hv; exact exSaved_unique

/-- A struct with a `u16`, an optional string that is `None` and a list: written to TOML and read back, it is the same. -/
example : ∃ w' r, (Layer.newFile (textHandler exToml) (os "/c.toml")).readValue w' = .ok r ∧ ∃ k d',
    deAt (fun _ => []) k (.struct [("port", .int .i64), ("proxy", .option .string), ("tags", .seq .string)]) r = .ok d' ∧
    DSame (.struct [("port", .int .i64 ⟨80, by decide⟩), ("proxy", .none), ("tags", .seq [.str "a"])]) d' := by
  obtain ⟨w', hok⟩ := (C84_write (exToml_like 80) exDisk (os "/c.toml") exSaved).2 exSaved_holds _ rfl rfl
  have flds : ∀ f ∈ [("port", Ty.int .i64), ("proxy", Ty.option .string), ("tags", Ty.seq .string)], f = ("port", .int .i64) ∨
      f = ("proxy", .option .string) ∨ f = ("tags", .seq .string) := by simp
  obtain ⟨r, hr, k0, h⟩ := C84_typed (exToml_like 80) (fun _ => []) (fun _ => .struct (by simp) (by simp)) (fun _ => .struct (by simp))
    (fun _ => .struct (by simp) (by simp)) (.struct [("port", .int .i64), ("proxy", .option .string), ("tags", .seq .string)])
    (.struct (by decide) (by
      intro f hf
      rcases flds f hf with rfl | rfl | rfl
      · exact .int ⟨by decide, by decide⟩
      · exact .option .string rfl
      · exact .seq .string))
    (.struct (by
      intro f hf
      rcases flds f hf with rfl | rfl | rfl
      · exact .int _
      · exact .option (.leaf (by simp))
      · exact .seq (.leaf (by simp))))
    (.struct (by
      intro f hf
      rcases flds f hf with rfl | rfl | rfl
      · exact Or.inl rfl
      · exact Or.inr ⟨_, rfl⟩
      · exact Or.inl rfl) (by
      intro f hf
      rcases flds f hf with rfl | rfl | rfl
      · exact .int _
      · exact .option (.leaf (by simp))
      · exact .seq (.leaf (by simp))))
    (.struct [("port", .int .i64 ⟨80, by decide⟩), ("proxy", .none), ("tags", .seq [.str "a"])])
    (.struct rfl (by
      rintro (_ | _ | _ | i) f d hf hd
      · simp at hf hd; subst hf; subst hd; exact .int _ _
      · simp at hf hd; subst hf; subst hd; exact .none _
      · simp at hf hd; subst hf; subst hd; refine .seq ?_; intro d hd; simp at hd; subst hd; exact .string _
      · simp at hf))
    exSaved rfl exSaved_depth exDisk w' (os "/c.toml") hok (by intro bs code wr h; cases h)
  obtain ⟨d', h1, h2⟩ := h k0 (Nat.le_refl _)
  exact ⟨w', r, hr, k0, d', h1, h2⟩

/-- The value without the `None` entry, as it was read back: saved again, it is read back as it is. -/
example : ∃ w' r', (Layer.newFile (textHandler exToml) (os "/c.toml")).writeValue exDisk (prune exSaved) = (.ok (), w') ∧
    (∀ p, ¬ NullEntry (prune exSaved) p) ∧ (Layer.newFile (textHandler exToml) (os "/c.toml")).readValue w' = .ok r' ∧ Alike (prune exSaved) r' := by
  have hp : prune exSaved = .map [("port", .integer ⟨80, by decide⟩), ("tags", .array [.string "a"])] := rfl
  have hholds : (prune exSaved).isMap = true ∧ TomlHolds (prune exSaved) := by
    rw [hp]
    refine ⟨rfl, .map ?_⟩
    intro e he
    simp only [List.mem_cons, List.not_mem_nil, or_false] at he
    rcases he with rfl | rfl
    · intro _; exact .integer _
    · intro _; refine .array ?_; intro x hx; simp only [List.mem_singleton] at hx; subst hx; exact .string _
  have hdepth : DepthBelow (prune exSaved) 80 := by
    intro p h
    apply exSaved_depth p
    intro h0
    have hom := omitting_prune' exSaved_unique
    by_cases hn : NullEntry exSaved p
    · exact h ((hom p).1 hn)
    · exact h (((hom p).2 hn).trans h0)
  obtain ⟨w', hok⟩ := (C84_write (exToml_like 80) exDisk (os "/c.toml") (prune exSaved)).2 hholds _ rfl rfl
  obtain ⟨hno, r', hr, ha⟩ := C84_stable (exToml_like 80) exDisk w' (os "/c.toml") exSaved (prune exSaved)
    (alikeOmitting_of (omitting_prune' exSaved_unique) (Alike.refl _)) (uniqueKeys_prune _ exSaved_unique) hdepth hok
    (by intro bs code wr h; cases h)
  exact ⟨w', r', hok, hno, hr, ha⟩

/-- Such a reading exists: the pruned map. -/
example : deAt (fun _ => []) 1 (.map .string (.option .string)) (prune (.map [("a", .none)])) = .ok (.map []) :=
  (C84_map_of_options (alikeOmitting_of (omitting_prune' (by simp [UniqueKeys, UniqueKeysMap, UniqueKeysEntry])) (Alike.refl _))).2.2.1

end Verif.Props
