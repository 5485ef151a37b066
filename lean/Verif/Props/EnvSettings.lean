import Verif.Spec.EnvSettings
import Verif.Props.EndToEnd
import Verif.Props.FloatText
import Verif.Props.Footprint
import Verif.Props.Floor
/-!
# C122: what the environment can do to typed settings
-/
namespace Verif.Props
open Spec

/-! ## Texts -/

/-- **C122.** What a type reads from a text, exactly: no list, tuple, map, struct, unit, enum or 128-bit integer is ever read from one. -/
theorem C122_text (structs : Nat → List (String × Ty)) (k : Nat) (T : Ty) (s : String) (d : Data) :
    deAt structs k T (.string s) = .ok d ↔ TextReads T s d := by
  have hb : ∀ x : Bool, (Value.string s).tryInto .bool = .ok x ↔ (x = true ∧ EqIgnoreAsciiCase s "true") ∨ (x = false ∧ EqIgnoreAsciiCase s "false") := by
    intro x
    obtain ⟨h1, h2, h3⟩ := C29_string_to_bool s
    constructor
    · intro h
      by_cases ht : EqIgnoreAsciiCase s "true"
      · rw [h1 ht] at h; cases h; exact Or.inl ⟨rfl, ht⟩
      · by_cases hf : EqIgnoreAsciiCase s "false"
        · rw [h2 hf] at h; cases h; exact Or.inr ⟨rfl, hf⟩
        · rw [h3 ht hf] at h; cases h
    · rintro (⟨rfl, h⟩ | ⟨rfl, h⟩)
      · exact h1 h
      · exact h2 h
  have hc : ∀ c : Char, (Value.string s).tryInto .char = .ok c ↔ ∃ r, s.toList = c :: r := by
    intro c
    simp only [Value.tryInto, Value.tryIntoChar]
    cases s.toList with
    | nil => simp
    | cons a r => simp [eq_comm]
  cases T with
  | bool =>
    rw [deAt, de, bind_eq_ok]
    constructor
    · rintro ⟨x, h1, h2⟩
      cases h2
      rcases (hb x).1 (ofExcept_ok.1 h1) with ⟨rfl, h⟩ | ⟨rfl, h⟩
      · exact .true s h
      · exact .false s h
    · intro h
      cases h with
      | true _ h => exact ⟨true, ofExcept_ok.2 ((hb _).2 (Or.inl ⟨rfl, h⟩)), rfl⟩
      | false _ h => exact ⟨false, ofExcept_ok.2 ((hb _).2 (Or.inr ⟨rfl, h⟩)), rfl⟩
  | int t =>
    rw [deAt, de, bind_eq_ok]
    constructor
    · rintro ⟨n, h1, h2⟩
      cases h2
      have ht : Upto64 t := by constructor <;> (rintro rfl; cases h1)
      rw [deInt_eq ht, ofExcept_ok] at h1
      exact .int t s n ht ((C25_string_to_int t s n.1).2.1 n h1).1
    · intro h
      cases h with
      | int _ _ n ht h =>
        obtain ⟨r, h1, h2⟩ := (C25_string_to_int t s n.1).1 h (inRange_self n)
        cases Subtype.ext h2
        exact ⟨n, by rw [deInt_eq ht, ofExcept_ok]; exact h1, rfl⟩
  | f64 =>
    rw [deAt, de, bind_eq_ok]
    constructor
    · rintro ⟨x, h1, h2⟩; cases h2; exact .f64 s x (ofExcept_ok.1 h1)
    · intro h; cases h with | f64 _ x h => exact ⟨x, ofExcept_ok.2 h, rfl⟩
  | f32 =>
    rw [deAt, de, bind_eq_ok]
    constructor
    · rintro ⟨x, h1, h2⟩; cases h2; exact .f32 s x (ofExcept_ok.1 h1)
    · intro h; cases h with | f32 _ x h => exact ⟨x, ofExcept_ok.2 h, rfl⟩
  | char =>
    rw [deAt, de, bind_eq_ok]
    constructor
    · rintro ⟨c, h1, h2⟩; cases h2
      obtain ⟨r, hr⟩ := (hc c).1 (ofExcept_ok.1 h1)
      exact .char s c r hr
    · intro h; cases h with | char _ c r h => exact ⟨c, ofExcept_ok.2 ((hc c).2 ⟨r, h⟩), rfl⟩
  | string =>
    constructor
    · intro h; cases h; exact .string s
    · intro h; cases h; rfl
  | value =>
    constructor
    · intro h; cases h; exact .value s
    · intro h; cases h; rfl
  | option T =>
    have ih := C122_text structs k T s
    show (deAt structs k T (.string s) >>= fun d => Outcome.ok (.some d)) = .ok d ↔ _
    rw [bind_eq_ok]
    constructor
    · rintro ⟨x, h1, h2⟩; cases h2; exact .option T s x ((ih x).1 h1)
    · intro h; cases h with | option _ _ x h => exact ⟨x, (ih x).2 h, rfl⟩
  | newtype T =>
    have ih := C122_text structs k T s
    show (deAt structs k T (.string s) >>= fun d => Outcome.ok (.newtypeStruct d)) = .ok d ↔ _
    rw [bind_eq_ok]
    constructor
    · rintro ⟨x, h1, h2⟩; cases h2; exact .newtype T s x ((ih x).1 h1)
    · intro h; cases h with | newtype _ _ x h => exact ⟨x, (ih x).2 h, rfl⟩
  | ref n =>
    constructor
    · intro h; cases k <;> cases h
    · intro h; cases h
  | unit | unitStruct | bytes | enum | seq | tuple | tupleStruct | map | struct =>
    constructor
    · intro h; cases h
    · intro h; cases h
  termination_by sizeOf T

/-- **C122.** Which texts a type can be read from. -/
theorem C122_fits (T : Ty) (s : String) : (∃ d, TextReads T s d) ↔ TextFits T s := by
  have hf : (∃ x, (Value.string s).tryInto .f64 = .ok x) ↔ SpellsFloat s := by
    constructor
    · rintro ⟨x, h⟩
      by_contra hn
      rw [C81_error s hn] at h; cases h
    · rintro ⟨neg, body, hs, h | h | h⟩
      · obtain ⟨q, hq⟩ := h; exact (C81_long s neg body hs).1 q hq
      · obtain ⟨x, hx, -⟩ := (C81_words s neg body hs).1 h; exact ⟨x, hx⟩
      · obtain ⟨x, hx, -⟩ := (C81_words s neg body hs).2 h; exact ⟨x, hx⟩
  constructor
  · rintro ⟨d, h⟩
    induction h with
    | string s => exact .string s
    | value s => exact .value s
    | char s c r h => exact .char s (by rintro rfl; cases h)
    | true s h => exact .bool s (Or.inl h)
    | false s h => exact .bool s (Or.inr h)
    | int t s n ht h => exact .int t s n.1 ht h (inRange_self n)
    | f64 s x h => exact .f64 s (hf.1 ⟨x, h⟩)
    | f32 s x h => exact .f32 s (hf.1 ⟨x, h⟩)
    | option T s d _ ih => exact .option T s (ih hf)
    | newtype T s d _ ih => exact .newtype T s (ih hf)
  · intro h
    induction h with
    | string s => exact ⟨_, .string s⟩
    | value s => exact ⟨_, .value s⟩
    | char s h =>
      cases hl : s.toList with
      | nil => exact absurd (by simpa using hl) h
      | cons c r => exact ⟨_, .char s c r hl⟩
    | bool s h =>
      rcases h with h | h
      · exact ⟨_, .true s h⟩
      · exact ⟨_, .false s h⟩
    | int t s n ht h hr => exact ⟨_, .int t s ⟨n, (inRange_iff _ _).1 hr⟩ ht h⟩
    | f64 s h => obtain ⟨x, hx⟩ := hf.2 h; exact ⟨_, .f64 s x hx⟩
    | f32 s h => obtain ⟨x, hx⟩ := hf.2 h; exact ⟨_, .f32 s x hx⟩
    | option T s _ ih => obtain ⟨d, hd⟩ := ih hf; exact ⟨_, .option T s d hd⟩
    | newtype T s _ ih => obtain ⟨d, hd⟩ := ih hf; exact ⟨_, .newtype T s d hd⟩

/-! ## One variable, one field -/

/-- What an environment layer holds under a key. -/
theorem env_entry {w : World} {pre P : String} (hP : Trimmed pre P) (hne : P ≠ "") :
    ∃ m, (Layer.newEnvironment pre).readValue w = .ok (.map m) ∧ UniqueKeys (.map m) ∧
      (∀ k s, EnvGives w.env P k s → hmGet m k = some (.string s)) ∧ ∀ k, (∀ s, ¬ EnvGives w.env P k s) → hmGet m k = none := by
  obtain ⟨x, hx, hxm, hu, h1, h2⟩ := C54_reads w pre P hP hne
  obtain ⟨m, rfl⟩ : ∃ m, x = .map m := by
    rcases isMap_cases x with ⟨m, rfl⟩ | h
    · exact ⟨m, rfl⟩
    · rw [hxm] at h; cases h
  refine ⟨m, hx, hu, ?_, ?_⟩
  · rintro k s ⟨before, var, after, e, hl, ht, hlast⟩
    obtain ⟨y, hc, hy⟩ := child_of_head (h1 k before var after s e hl ht hlast).2
    rw [child_key_map] at hc
    rw [hc, head_string hy]
  · intro k hk
    rcases C54_cases w P k with h | ⟨before, var, after, s, e, hl, ht, hlast⟩
    · have := h2 k h
      rw [view_key_map] at this
      cases hg : hmGet m k with
      | none => rfl
      | some y => rw [hg] at this; cases this
    · exact absurd ⟨before, var, after, e, hl, ht, hlast⟩ (hk s)

/-- **C122.** An environment layer on top of a configuration, field by field: a field on which a variable lands is read from the variable's text
and from nothing else, every other field as without the environment. So the settings can be read exactly if every such text fits its field
and the others can be read as they are. -/
theorem C122_overrides (b : Build) (fm : Formats) (calls : List RegCall) (w : World) (skip : Bool) (v v' : Value)
    (h : (register b fm calls).buildValue w skip = .ok v) (hp : ∀ e ∈ firsts (offers b fm calls), Proper e.2)
    (name pre P : String) (hnew : ∀ a ∈ offers b fm calls, a.1 ≠ name) (hP : Trimmed pre P) (hne : P ≠ "")
    (h' : (register b fm (calls ++ [.environment name pre])).buildValue w skip = .ok v')
    (structs : Nat → List (String × Ty)) (k : Nat) (fs : List (String × Ty)) (hf : (fs.map Prod.fst).Nodup) (d : Data) :
    deAt structs k (.struct fs) v' = .ok d ↔ ∃ ds, d = .struct ds ∧ List.Forall₂ (fun f nd => nd.1 = f.1 ∧
      ((∃ s, EnvGives w.env P f.1 s ∧ TextReads f.2 s nd.2) ∨
        ((∀ s, ¬ EnvGives w.env P f.1 s) ∧ deAt structs k (.struct [f]) v = .ok (.struct [nd])))) fs ds := by
  obtain ⟨mx, hx, hux, hs, hn⟩ := env_entry (w := w) hP hne
  have hnx := (uniqueKeys_map.1 hux).1
  have hb := C14_add_last b fm calls (.environment name pre) w skip (name, Layer.newEnvironment pre) (.map mx) v rfl hnew hx h
  rw [h', Except.ok.injEq] at hb
  subst hb
  obtain ⟨hvm, hvu⟩ := C08_map b fm calls w skip v h
  obtain ⟨m, rfl⟩ : ∃ m, v = .map m := by
    rcases isMap_cases v with ⟨m, rfl⟩ | h
    · exact ⟨m, rfl⟩
    · rw [hvm] at h; cases h
  have hmn := (uniqueKeys_map.1 (hvu hp)).1
  have hun : ((mergeEntries m mx).map Prod.fst).Nodup := by
    have := uniqueKeys_merge (hvu hp) hux
    rw [merge_map_map] at this
    exact (uniqueKeys_map.1 this).1
  rw [merge_map_map, deAt, de_struct_ok _ fs hf _ hun]
  have one : ∀ f nd, deAt structs k (.struct [f]) (.map m) = .ok (.struct [nd]) ↔ nd.1 = f.1 ∧
      (match hmGet m f.1 with | some v => de (refsAt structs k) f.2 v | none => missingField f.1 f.2) = .ok nd.2 := by
    intro f nd
    rw [deAt, de_struct_ok _ [f] (by simp) _ hmn]
    constructor
    · rintro ⟨ds, e, hd⟩
      cases e
      cases hd with
      | cons h1 _ => exact h1
    · intro h1
      exact ⟨_, rfl, .cons h1 .nil⟩
  have key : ∀ (f : String × Ty) (nd : String × Data),
      ((match hmGet (mergeEntries m mx) f.1 with | some v => de (refsAt structs k) f.2 v | none => missingField f.1 f.2) = .ok nd.2 ∧ nd.1 = f.1) ↔
      nd.1 = f.1 ∧ ((∃ s, EnvGives w.env P f.1 s ∧ TextReads f.2 s nd.2) ∨
        ((∀ s, ¬ EnvGives w.env P f.1 s) ∧ deAt structs k (.struct [f]) (.map m) = .ok (.struct [nd]))) := by
    intro f nd
    rw [one]
    by_cases he : ∃ s, EnvGives w.env P f.1 s
    · obtain ⟨s, he⟩ := he
      have hg := hs _ _ he
      have hmg : hmGet (mergeEntries m mx) f.1 = some (.string s) := by
        rw [hmGet_mergeEntries mx m hnx, hg]
        cases hmGet m f.1 <;> simp [Value.isMap]
      rw [hmg]
      have ht := C122_text structs k f.2 s nd.2
      rw [deAt] at ht
      show (de (refsAt structs k) f.2 (.string s) = _ ∧ _) ↔ _
      rw [ht]
      constructor
      · rintro ⟨h1, h2⟩; exact ⟨h2, Or.inl ⟨s, he, h1⟩⟩
      · rintro ⟨h2, ⟨s', he', h1⟩ | ⟨hno, -⟩⟩
        · have := hs _ _ he'
          rw [hg] at this; cases this
          exact ⟨h1, h2⟩
        · exact absurd he (hno s)
    · have hno : ∀ s, ¬ EnvGives w.env P f.1 s := fun s hs => he ⟨s, hs⟩
      rw [hmGet_mergeEntries mx m hnx, hn _ hno]
      constructor
      · rintro ⟨h1, h2⟩; exact ⟨h2, Or.inr ⟨hno, h2, h1⟩⟩
      · rintro ⟨h2, ⟨s, hs, -⟩ | ⟨-, -, h1⟩⟩
        · exact absurd hs (hno s)
        · exact ⟨h1, h2⟩
  constructor
  · rintro ⟨ds, rfl, hd⟩
    exact ⟨ds, rfl, hd.imp fun f nd hh => (key f nd).1 ⟨hh.2, hh.1⟩⟩
  · rintro ⟨ds, rfl, hd⟩
    exact ⟨ds, rfl, hd.imp fun f nd hh => ⟨((key f nd).2 hh).2, ((key f nd).2 hh).1⟩⟩

/-! ## Which settings the environment can break -/

theorem lands_iff {P : String} (hP : Trimmed P P) (hne : P ≠ "") (k : String) :
    (∀ var, Lands P var k → Reachable P k) ∧ (Reachable P k → ∀ t, Lands P (os (P ++ k), t) k) := by
  have hPn : P.toList ≠ [] := by simpa using hne
  have last : ∀ n, 1 ≤ n → ∀ l : List Char, l ≠ [] → (times n P.toList ++ l).getLast? = l.getLast? := by
    intro n _ l hl
    rw [List.getLast?_append_of_ne_nil _ hl]
  constructor
  · rintro var ⟨name, t, -, ⟨-, -, ht⟩, hk, n, hn, e⟩
    refine ⟨hk, fun c hc => ht c ?_⟩
    have hkn : k.toList ≠ [] := by intro h; rw [h] at hc; cases hc
    rw [e, last n hn _ hkn]; exact hc
  · rintro ⟨hk, hl⟩ t
    refine ⟨P ++ k, P ++ k, rfl, ⟨⟨[], [], by simp, by simp, by simp⟩, ?_, ?_⟩, hk, 1, le_refl 1, by simp [times]⟩
    · intro c hc
      refine hP.2.1 c ?_
      rw [String.toList_append, List.head?_append_of_ne_nil _ hPn] at hc; exact hc
    · intro c hc
      rw [String.toList_append] at hc
      by_cases hkn : k.toList = []
      · rw [hkn, List.append_nil] at hc; exact hP.2.2 c hc
      · rw [List.getLast?_append_of_ne_nil _ hkn] at hc; exact hl c hc

theorem trimmed_self {s t : String} (h : Trimmed s t) : Trimmed t t := ⟨⟨[], [], by simp, by simp, by simp⟩, h.2⟩

/-- **C122.** The keys a variable can land on: exactly those that do not begin with the prefix and do not end in a blank; the variable `P ++ k`
lands on such a key `k`. -/
theorem C122_reachable (pre P : String) (hP : Trimmed pre P) (hne : P ≠ "") (k : String) :
    ((∃ var, Lands P var k) ↔ Reachable P k) ∧ (Reachable P k → ∀ t, Lands P (os (P ++ k), t) k) :=
  have h := lands_iff (trimmed_self hP) hne k
  ⟨⟨fun ⟨var, hv⟩ => h.1 var hv, fun hr => ⟨_, h.2 hr (os "")⟩⟩, h.2⟩

/-- The empty text can be read exactly by the types that can be read from any text. -/
theorem empty_text (T : Ty) : TextFits T "" ↔ TakesAnyText T := by
  constructor
  · intro h
    generalize hs : "" = s at h
    induction h with
    | string => exact .string
    | value => exact .value
    | char s h => exact absurd hs.symm h
    | bool s h =>
      subst hs
      have : (Value.string "").tryInto .bool = .error (.conversionError "String" "bool" "can't parse string as boolean") := by decide
      rcases h with h | h
      · rw [(C29_string_to_bool "").1 h] at this; cases this
      · rw [(C29_string_to_bool "").2.1 h] at this; cases this
    | int t s n ht h hr =>
      subst hs
      obtain ⟨r, h1, -⟩ := (C25_string_to_int t "" n).1 h hr
      have : (Value.string "").tryIntoInt t = .error (.conversionError "String" t.name "can't parse string") := by cases t <;> decide
      rw [this] at h1; cases h1
    | f64 s h =>
      subst hs
      obtain ⟨x, hx⟩ := (C122_fits .f64 "").2 (.f64 "" h)
      cases hx with | f64 _ x h => exact absurd h (by simp [Value.tryInto, Value.tryIntoF64, parseF64])
    | f32 s h =>
      subst hs
      obtain ⟨x, hx⟩ := (C122_fits .f32 "").2 (.f32 "" h)
      cases hx with | f32 _ x h => exact absurd h (by simp [Value.tryInto, Value.tryIntoF64, parseF64])
    | option T s _ ih => exact .option T (ih hs)
    | newtype T s _ ih => exact .newtype T (ih hs)
  · intro h
    induction h with
    | string => exact .string _
    | value => exact .value _
    | option T _ ih => exact .option T _ ih
    | newtype T _ ih => exact .newtype T _ ih

theorem any_text {T : Ty} (h : TakesAnyText T) (s : String) : ∃ d, TextReads T s d := by
  induction h with
  | string => exact ⟨_, .string s⟩
  | value => exact ⟨_, .value s⟩
  | option T _ ih => obtain ⟨d, hd⟩ := ih; exact ⟨_, .option T s d hd⟩
  | newtype T _ ih => obtain ⟨d, hd⟩ := ih; exact ⟨_, .newtype T s d hd⟩

/-- **C122.** Settings all of whose fields can be read from any text (or cannot be reached by any variable) cannot be made unreadable by
environment variables, whatever is set. -/
theorem C122_safe (b : Build) (fm : Formats) (calls : List RegCall) (w : World) (skip : Bool) (v v' : Value)
    (h : (register b fm calls).buildValue w skip = .ok v) (hp : ∀ e ∈ firsts (offers b fm calls), Proper e.2)
    (name pre P : String) (hnew : ∀ a ∈ offers b fm calls, a.1 ≠ name) (hP : Trimmed pre P) (hne : P ≠ "")
    (h' : (register b fm (calls ++ [.environment name pre])).buildValue w skip = .ok v')
    (structs : Nat → List (String × Ty)) (k : Nat) (fs : List (String × Ty)) (hf : (fs.map Prod.fst).Nodup)
    (hsafe : ∀ f ∈ fs, Reachable P f.1 → TakesAnyText f.2)
    (d : Data) (hd : deAt structs k (.struct fs) v = .ok d) : ∃ d', deAt structs k (.struct fs) v' = .ok d' := by
  obtain ⟨hvm, hvu⟩ := C08_map b fm calls w skip v h
  obtain ⟨m, rfl⟩ : ∃ m, v = .map m := by
    rcases isMap_cases v with ⟨m, rfl⟩ | h
    · exact ⟨m, rfl⟩
    · rw [hvm] at h; cases h
  have hmn := (uniqueKeys_map.1 (hvu hp)).1
  rw [deAt, de_struct_ok _ fs hf _ hmn] at hd
  obtain ⟨ds, rfl, hds⟩ := hd
  have hall : ∀ f ∈ fs, ∃ nd : String × Data, nd.1 = f.1 ∧ ((∃ s, EnvGives w.env P f.1 s ∧ TextReads f.2 s nd.2) ∨
        ((∀ s, ¬ EnvGives w.env P f.1 s) ∧ deAt structs k (.struct [f]) (.map m) = .ok (.struct [nd]))) := by
    intro f hfm
    by_cases he : ∃ s, EnvGives w.env P f.1 s
    · obtain ⟨s, he⟩ := he
      obtain ⟨before, var, after, -, hl, -⟩ := id he
      obtain ⟨x, hx⟩ := any_text (hsafe f hfm ((C122_reachable pre P hP hne f.1).1.1 ⟨var, hl⟩)) s
      exact ⟨(f.1, x), rfl, Or.inl ⟨s, he, hx⟩⟩
    · obtain ⟨nd, -, hnd⟩ := forall2_left hds f hfm
      refine ⟨nd, hnd.1, Or.inr ⟨fun s hs => he ⟨s, hs⟩, ?_⟩⟩
      rw [deAt, de_struct_ok _ [f] (by simp) _ hmn]
      exact ⟨_, rfl, .cons hnd .nil⟩
  have hex : ∀ l : List (String × Ty), (∀ f ∈ l, f ∈ fs) → ∃ ds, List.Forall₂ (fun f (nd : String × Data) => nd.1 = f.1 ∧
      ((∃ s, EnvGives w.env P f.1 s ∧ TextReads f.2 s nd.2) ∨
        ((∀ s, ¬ EnvGives w.env P f.1 s) ∧ deAt structs k (.struct [f]) (.map m) = .ok (.struct [nd])))) l ds := by
    intro l hl
    induction l with
    | nil => exact ⟨[], .nil⟩
    | cons f r ih =>
      obtain ⟨ds, hds⟩ := ih fun g hg => hl g (List.mem_cons_of_mem _ hg)
      obtain ⟨nd, hnd⟩ := hall f (hl f List.mem_cons_self)
      exact ⟨nd :: ds, .cons hnd hds⟩
  obtain ⟨ds', hds'⟩ := hex fs fun _ h => h
  exact ⟨_, (C122_overrides b fm calls w skip _ v' h hp name pre P hnew hP hne h' structs k fs hf _).2 ⟨ds', rfl, hds'⟩⟩

/-- **C122.** All other settings can be: one more variable, named by the prefix and the field and set to the empty text, makes settings
with a field of any other type unreadable, whatever the layers hold. -/
theorem C122_breaks (b : Build) (fm : Formats) (calls : List RegCall) (w : World) (skip : Bool) (v' : Value)
    (hp : ∀ e ∈ firsts (offers b fm calls), Proper e.2)
    (name pre P : String) (hnew : ∀ a ∈ offers b fm calls, a.1 ≠ name) (hP : Trimmed pre P) (hne : P ≠ "")
    (structs : Nat → List (String × Ty)) (k : Nat) (fs : List (String × Ty)) (hf : (fs.map Prod.fst).Nodup)
    (f : String × Ty) (hfm : f ∈ fs) (hr : Reachable P f.1) (ht : ¬ TakesAnyText f.2)
    (h' : (register b fm (calls ++ [.environment name pre])).buildValue { w with env := w.env ++ [(os (P ++ f.1), os "")] } skip = .ok v')
    (d : Data) : deAt structs k (.struct fs) v' ≠ .ok d := by
  intro hd
  have hlow : ∃ v, (register b fm calls).buildValue { w with env := w.env ++ [(os (P ++ f.1), os "")] } skip = .ok v := by
    refine C113_succeeds b fm _ calls _ skip v' (firsts (offers b fm calls)) [] (name, Layer.newEnvironment pre) ?_ (by simp) h'
    have : offers b fm (calls ++ [.environment name pre]) = offers b fm calls ++ [(name, Layer.newEnvironment pre)] := by
      unfold offers; rw [List.filterMap_append]; rfl
    rw [this, firsts_append_new]
    intro hm
    obtain ⟨a, ha, hae⟩ := List.mem_map.1 hm
    exact hnew a ha hae
  obtain ⟨v, h⟩ := hlow
  obtain ⟨ds, -, hds⟩ := (C122_overrides b fm calls _ skip v v' h hp name pre P hnew hP hne h' structs k fs hf d).1 hd
  obtain ⟨nd, -, -, hnd⟩ := forall2_left hds f hfm
  have hg : EnvGives (w.env ++ [(os (P ++ f.1), os "")]) P f.1 "" :=
    ⟨w.env, _, [], rfl, (C122_reachable pre P hP hne f.1).2 hr _, rfl, by simp⟩
  rcases hnd with ⟨s, hs, hx⟩ | ⟨hno, -⟩
  · have : s = "" := by
      obtain ⟨m, -, -, h1, -⟩ := env_entry (w := { w with env := w.env ++ [(os (P ++ f.1), os "")] }) hP hne
      have e1 := h1 _ _ hs
      have e2 := h1 _ _ hg
      rw [e1] at e2; cases e2; rfl
    subst this
    exact ht ((empty_text _).1 ((C122_fits _ _).1 ⟨_, hx⟩))
  · exact hno _ hg

/-- **C122.** The same for a program that calls `create_config!` with an environment: it always gets its configuration and a built value, but one
variable can make its settings unreadable if any field is of another type. -/
theorem C122_program (b : Build) (fm : Formats) (w : World) (args : MacroArgs) (hd : ∀ e ∈ args.default, UniqueKeys e.2)
    (pre P : String) (he : args.env = some pre) (hP : Trimmed pre P) (hne : P ≠ "") (hn : ∀ l ∈ args.layers, l.name ≠ "environment")
    (structs : Nat → List (String × Ty)) (k : Nat) (fs : List (String × Ty)) (hf : (fs.map Prod.fst).Nodup)
    (f : String × Ty) (hfm : f ∈ fs) (hr : Reachable P f.1) (ht : ¬ TakesAnyText f.2) :
    ∃ c w' v, createConfig b fm { w with env := w.env ++ [(os (P ++ f.1), os "")] } args = .ok (c, w') ∧
      c.buildValue w' true = .ok v ∧ v.get f.1 = .string "" ∧ ∀ d, deAt structs k (.struct fs) v ≠ .ok d := by
  obtain ⟨c, w', dv, h1, -, -, h4⟩ := C95_defaults b fm { w with env := w.env ++ [(os (P ++ f.1), os "")] } args hd
  obtain ⟨v, hv, hg⟩ := C60_env_wins b fm _ args pre P f.1 "" c w' h1 he hP hne hn w.env [] _ rfl
    ((C122_reachable pre P hP hne f.1).2 hr _) rfl (by simp)
  obtain ⟨hm, hu, -⟩ := h4 w' true v hv
  refine ⟨c, w', v, h1, hv, hg, fun d hd => ?_⟩
  obtain ⟨m, rfl⟩ : ∃ m, v = .map m := by
    rcases isMap_cases v with ⟨m, rfl⟩ | h
    · exact ⟨m, rfl⟩
    · rw [hm] at h; cases h
  rw [deAt, de_struct_ok _ fs hf _ (uniqueKeys_map.1 hu).1] at hd
  obtain ⟨ds, rfl, hds⟩ := hd
  obtain ⟨nd, -, -, hnd⟩ := forall2_left hds f hfm
  have : hmGet m f.1 = some (.string "") := by
    simp only [Value.get] at hg
    cases hh : hmGet m f.1 with
    | none => rw [hh] at hg; cases hg
    | some y => rw [hh] at hg; exact congrArg some hg
  rw [this] at hnd
  exact ht ((empty_text _).1 ((C122_fits _ _).1 ⟨_, (C122_text structs k f.2 "" nd.2).1 hnd⟩))

/-! ## A case -/

/-- Defaults in memory: a port, a name and a section. -/
def exEnvCalls : List RegCall :=
  [.memory "d" (.map [("port", .integer ⟨80, by decide⟩), ("name", .string "a"), ("ui", .map [("dark", .boolean true)])])]
def exEnvTy : List (String × Ty) := [("port", .int .u16), ("name", .string), ("ui", .struct [("dark", .bool)])]
/-- `APP_port=8080` and `APP_name=` are set. -/
def exEnvWorld : World := { exFresh with env := [(os "APP_port", os "8080"), (os "APP_name", os "")] }

theorem exEnv_proper : ∀ e ∈ firsts (offers exB1 exFormats exEnvCalls), Proper e.2 := by
  intro e he
  have : e = ("d", .memory (.map [("port", .integer ⟨80, by decide⟩), ("name", .string "a"), ("ui", .map [("dark", .boolean true)])])) := by
    simpa [exEnvCalls, offers, firsts, RegCall.offer] using he
  subst this
  intro w v hv; cases hv; simp [UniqueKeys, UniqueKeysMap, UniqueKeysEntry]

theorem exEnv_port : Lands "APP_" (os "APP_port", os "8080") "port" :=
  ⟨"APP_port", "APP_port", rfl, (trimStr_iff _ _).1 (by decide), by decide, 1, by decide, by decide⟩
theorem exEnv_name : Lands "APP_" (os "APP_name", os "") "name" :=
  ⟨"APP_name", "APP_name", rfl, (trimStr_iff _ _).1 (by decide), by decide, 1, by decide, by decide⟩
theorem exEnv_prefix : Trimmed " APP_" "APP_" := (trimStr_iff _ _).1 (by decide)

/-- The port and the name come from the environment, the section from the defaults. -/
example (v' : Value) (h' : (register exB1 exFormats (exEnvCalls ++ [.environment "env" " APP_"])).buildValue exEnvWorld false = .ok v') :
    deAt (fun _ => []) 0 (.struct exEnvTy) v' =
      .ok (.struct [("port", .int .u16 ⟨8080, by decide⟩), ("name", .str ""), ("ui", .struct [("dark", .bool true)])]) := by
  refine (C122_overrides exB1 exFormats exEnvCalls exEnvWorld false _ v' rfl exEnv_proper "env" " APP_" "APP_" (by decide) exEnv_prefix (by decide) h'
    (fun _ => []) 0 exEnvTy (by decide) _).2 ⟨_, rfl, .cons ⟨rfl, Or.inl ⟨"8080", ?_, ?_⟩⟩ (.cons ⟨rfl, Or.inl ⟨"", ?_, ?_⟩⟩ (.cons ⟨rfl, Or.inr ⟨?_, ?_⟩⟩ .nil))⟩
  · refine ⟨[], _, _, rfl, exEnv_port, rfl, ?_⟩
    intro a ha hl
    cases List.mem_singleton.1 ha
    exact absurd (lands_unique (by decide) hl.1 exEnv_name) (by decide)
  · exact .int .u16 "8080" ⟨8080, by decide⟩ ⟨by decide, by decide⟩ ⟨['8', '0', '8', '0'], 8080, ⟨by simp, by decide, by decide⟩, Or.inl ⟨rfl, rfl⟩⟩
  · exact ⟨[_], _, [], rfl, exEnv_name, rfl, by simp⟩
  · exact .string ""
  · rintro s ⟨before, var, after, e, hl, -⟩
    have hm : var ∈ exEnvWorld.env := by rw [e]; simp
    simp only [exEnvWorld, List.mem_cons, List.not_mem_nil, or_false] at hm
    rcases hm with rfl | rfl
    · exact absurd (lands_unique (by decide) hl exEnv_port) (by decide)
    · exact absurd (lands_unique (by decide) hl exEnv_name) (by decide)
  · rfl

/-- One more variable, `APP_ui` set to nothing, and the settings cannot be read. -/
example (v' : Value) (h' : (register exB1 exFormats (exEnvCalls ++ [.environment "env" " APP_"])).buildValue
    { exEnvWorld with env := exEnvWorld.env ++ [(os ("APP_" ++ "ui"), os "")] } false = .ok v') (d : Data) :
    deAt (fun _ => []) 0 (.struct exEnvTy) v' ≠ .ok d :=
  C122_breaks exB1 exFormats exEnvCalls exEnvWorld false v' exEnv_proper "env" " APP_" "APP_" (by decide) exEnv_prefix (by decide) (fun _ => []) 0
    exEnvTy (by decide) ("ui", .struct [("dark", .bool)]) (by simp [exEnvTy]) ⟨by decide, by decide⟩ (fun h => nomatch h) h' d

/-- Settings made of texts are safe. -/
example (v' : Value) (h' : (register exB1 exFormats (exEnvCalls ++ [.environment "env" " APP_"])).buildValue exEnvWorld false = .ok v') :
    ∃ d, deAt (fun _ => []) 0 (.struct [("name", .string), ("nick", .option .string)]) v' = .ok d :=
  C122_safe exB1 exFormats exEnvCalls exEnvWorld false _ v' rfl exEnv_proper "env" " APP_" "APP_" (by decide) exEnv_prefix (by decide) h'
    (fun _ => []) 0 _ (by decide) (by
      intro f hf _
      simp only [List.mem_cons, List.not_mem_nil, or_false] at hf
      rcases hf with rfl | rfl
      · exact .string
      · exact .option _ .string) (.struct [("name", .str "a"), ("nick", .none)]) rfl

/-- The example program of `create_config!` with a number of retries among its settings: `APP_retries` set to nothing is enough. -/
example : ∃ c w' v, createConfig exB1 exFormats { exMacroWorld with env := exMacroWorld.env ++ [(os ("APP_" ++ "retries"), os "")] } exArgs = .ok (c, w') ∧
    c.buildValue w' true = .ok v ∧ v.get "retries" = .string "" ∧
      ∀ d, deAt (fun _ => []) 0 (.struct [("text", .string), ("retries", .option (.int .u8))]) v ≠ .ok d :=
  C122_program exB1 exFormats exMacroWorld exArgs (by intro e he; simp [exArgs] at he; subst he; simp [UniqueKeys]) "APP_" "APP_" rfl
    ((trimStr_iff _ _).1 (by decide)) (by decide) (by decide) (fun _ => []) 0 _ (by decide) ("retries", .option (.int .u8)) (by simp)
    ⟨by decide, by decide⟩ (fun h => by cases h with | option _ h => cases h)

end Verif.Props
