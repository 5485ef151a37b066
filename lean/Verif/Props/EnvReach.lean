import Verif.Spec.EnvReach
import Verif.Props.EnvSettings
import Verif.Props.Evolution
import Verif.Props.Worst
/-!
# C141: which settings the environment can bring about
-/
namespace Verif.Props
open Verif Verif.Spec

theorem digits_noNul {ds : List Char} {n : Nat} (h : DigitsSpell ds n) : '\x00' ∉ ds :=
  fun hm => absurd (h.2.1 _ hm).1 (by decide)

theorem signed_noNul {s : String} {neg : Bool} {body : List Char} (h : Signed s neg body) (hb : '\x00' ∉ body) : '\x00' ∉ s.toList := by
  rcases h with ⟨-, h⟩ | ⟨-, h | h⟩ <;> rw [h] <;> simp [hb]

theorem word_noNul {body : List Char} {w : String} (h : EqIgnoreAsciiCase (String.ofList body) w) (hw : ∀ d ∈ w.toList, 'a' ≤ d ∧ d ≤ 'z') : '\x00' ∉ body := by
  rw [← asciiLower_word _ _ hw] at h
  intro hm
  have : '\x00' ∈ w.toList := by rw [← h, String.toList_ofList]; exact List.mem_map.2 ⟨_, hm, by decide⟩
  exact absurd (hw _ this).1 (by decide)

theorem numeral_noNul {body : List Char} {q : ℚ} (h : Numeral body q) : '\x00' ∉ body := by
  obtain ⟨ip, fp, ex, n, e, hd, hex, hb, -⟩ := h
  have h1 := digits_noNul hd
  rw [List.mem_append, not_or] at h1
  have h2 : '\x00' ∉ ex := by
    rcases hex with ⟨rfl, -⟩ | ⟨c, ds, m, hc, hds, h⟩
    · simp
    · have := digits_noNul hds
      rcases hc with rfl | rfl <;> rcases h with ⟨rfl, -⟩ | ⟨rfl, -⟩ | ⟨rfl, -⟩ <;> simp [this]
  rcases hb with ⟨-, rfl⟩ | rfl <;> simp [h1, h2]

theorem float_noNul {s : String} (h : SpellsFloat s) : '\x00' ∉ s.toList := by
  obtain ⟨neg, body, hs, h⟩ := h
  refine signed_noNul hs ?_
  rcases h with ⟨q, h⟩ | h | h | h
  · exact numeral_noNul h
  · exact word_noNul h (by decide)
  · exact word_noNul h (by decide)
  · exact word_noNul h (by decide)

theorem spells_noNul {t : IntTy} {s : String} {n : Int} (h : Spells t s n) : '\x00' ∉ s.toList := by
  obtain ⟨ds, m, hd, h⟩ := h
  have := digits_noNul hd
  rcases h with ⟨h, -⟩ | ⟨h, -⟩ | ⟨-, h, -⟩ <;> rw [h] <;> simp [this]

/-- **C141.** The data a variable can give to a setting of the type. -/
theorem C141_text (T : Ty) (d : Data) : (∃ s : String, '\x00' ∉ s.toList ∧ TextReads T s d) ↔ TextSayable T d := by
  constructor
  · rintro ⟨s, hs, h⟩
    induction h with
    | string s => exact .string hs
    | value s => exact .value hs
    | char s c r h => exact .char (by rintro rfl; exact hs (by rw [h]; simp))
    | true s h => exact .bool _
    | false s h => exact .bool _
    | int t s n ht h => exact .int n ht
    | f64 s x h => exact .f64 x
    | f32 s x h => exact .f32 _
    | option T s d _ ih => exact .some (ih hs)
    | newtype T s d _ ih => exact .newtype (ih hs)
  · intro h
    induction h with
    | bool b =>
      cases b
      · exact ⟨"false", by decide, .false _ ⟨rfl, fun i c d h1 h2 => Or.inl (Option.some.inj (h1.symm.trans h2))⟩⟩
      · exact ⟨"true", by decide, .true _ ⟨rfl, fun i c d h1 h2 => Or.inl (Option.some.inj (h1.symm.trans h2))⟩⟩
    | @int t n ht =>
      have := deKey_keyText (kt := .int t) ht (k := .int t n) ⟨n, rfl⟩
      rw [deKey] at this
      obtain ⟨a, ha, h⟩ := bind_eq_ok.1 this
      cases h
      have hr := (C122_text (fun _ => []) 0 (.int t) (keyText (.int t n)) (.int t n)).1 (by rw [deAt, de, ha]; rfl)
      cases hr with | int _ _ _ _ h => exact ⟨_, spells_noNul h, .int _ _ _ ht h⟩
    | f32 x =>
      obtain ⟨s, -, h⟩ := C34_float_text_roundtrip (F64.ofF32 x)
      have hf := (C122_fits .f64 s).1 ⟨_, .f64 s _ h⟩
      have hr := TextReads.f32 s _ h
      rw [f32_roundtrip] at hr
      cases hf with | f64 _ hf => exact ⟨s, float_noNul hf, hr⟩
    | f64 x =>
      obtain ⟨s, -, h⟩ := C34_float_text_roundtrip x
      have hf := (C122_fits .f64 s).1 ⟨_, .f64 s x h⟩
      cases hf with | f64 _ hf => exact ⟨s, float_noNul hf, .f64 s x h⟩
    | @char c hc => exact ⟨String.singleton c, by simpa using Ne.symm hc, .char _ c [] (by simp)⟩
    | @string s hs => exact ⟨s, hs, .string s⟩
    | @value s hs => exact ⟨s, hs, .value s⟩
    | some _ ih => obtain ⟨s, h1, h2⟩ := ih; exact ⟨s, h1, .option _ _ _ h2⟩
    | newtype _ ih => obtain ⟨s, h1, h2⟩ := ih; exact ⟨s, h1, .newtype _ _ _ h2⟩

theorem nul_os (s : String) (c : Char) : OsChar.chr c ∈ os s ↔ c ∈ s.toList := by
  simp [os]

theorem lands_nameable {P k : String} {var : OsStr × OsStr} (h : Lands P var k) (h1 : OsChar.chr '=' ∉ var.1) (h2 : OsChar.chr '\x00' ∉ var.1) : Nameable (P ++ k) := by
  obtain ⟨name, t, e, ht, -, n, hn, et⟩ := h
  rw [e, nul_os] at h1 h2
  obtain ⟨⟨a, c, ea, -⟩, -⟩ := ht
  have key : ∀ x : Char, x ∉ name.toList → x ∉ (P ++ k).toList := by
    intro x hx hm
    apply hx
    rw [ea, et]
    obtain ⟨n, rfl⟩ : ∃ j, n = j + 1 := ⟨n - 1, by omega⟩
    rw [String.toList_append, List.mem_append] at hm
    simp only [times, List.replicate_succ, List.flatten_cons, List.mem_append]
    tauto
  exact ⟨key _ h1, key _ h2⟩

/-- The variables for the fields that need one. -/
theorem env_for (P : String) (fs : List (String × Ty)) (ds : List (String × Data)) (Q : String × Ty → String × Data → Prop) (hf : (fs.map Prod.fst).Nodup)
    (h : List.Forall₂ (fun f nd => (Reachable P f.1 ∧ Nameable (P ++ f.1) ∧ TextSayable f.2 (Prod.snd nd)) ∨ Q f nd) fs ds) :
    ∃ vs : List (String × String), (vs.map Prod.fst).Nodup ∧
      (∀ v ∈ vs, v.1 ∈ fs.map Prod.fst ∧ Reachable P v.1 ∧ Nameable (P ++ v.1) ∧ '\x00' ∉ v.2.toList) ∧
      List.Forall₂ (fun f nd => (∃ s, (f.1, s) ∈ vs ∧ TextReads f.2 s (Prod.snd nd)) ∨ (f.1 ∉ vs.map Prod.fst ∧ Q f nd)) fs ds := by
  induction h with
  | nil => exact ⟨[], by simp, by simp, .nil⟩
  | @cons f nd fr dr h hr ih =>
    simp only [List.map_cons, List.nodup_cons] at hf
    obtain ⟨vs, h1, h2, h3⟩ := ih hf.2
    have hfv : f.1 ∉ vs.map Prod.fst := fun hm => by
      obtain ⟨v, hv, e⟩ := List.mem_map.1 hm
      exact hf.1 (e ▸ (h2 v hv).1)
    rcases h with ⟨ha, hb, hc⟩ | hq
    · obtain ⟨s, hs, hread⟩ := (C141_text _ _).2 hc
      refine ⟨(f.1, s) :: vs, by simp only [List.map_cons, List.nodup_cons]; exact ⟨hfv, h1⟩, ?_, .cons (Or.inl ⟨s, by simp, hread⟩) ?_⟩
      · intro v hv
        rcases List.mem_cons.1 hv with rfl | hv
        · exact ⟨by simp, ha, hb, hs⟩
        · obtain ⟨q1, q2⟩ := h2 v hv; exact ⟨by simp only [List.map_cons, List.mem_cons]; exact Or.inr q1, q2⟩
      · have hmem : ∀ g ∈ fr, g.1 ≠ f.1 := fun g hg e => hf.1 (by rw [← e]; exact List.mem_map_of_mem hg)
        clear ih hr h2 hf
        induction h3 with
        | nil => exact .nil
        | @cons g nd' gr dr' h3 _ ih =>
          refine .cons ?_ (ih fun g hg => hmem g (by simp [hg]))
          rcases h3 with ⟨s', hs', hr'⟩ | ⟨hn, hq⟩
          · exact Or.inl ⟨s', by simp [hs'], hr'⟩
          · refine Or.inr ⟨?_, hq⟩
            simp only [List.map_cons, List.mem_cons, not_or]
            exact ⟨hmem g (by simp), hn⟩
    · refine ⟨vs, h1, fun v hv => ?_, .cons (Or.inr ⟨hfv, hq⟩) h3⟩
      obtain ⟨q1, q2⟩ := h2 v hv; exact ⟨by simp only [List.map_cons, List.mem_cons]; exact Or.inr q1, q2⟩

/-- **C141.** Layers that say `v` whatever the environment, and an environment layer on top. The settings some environment brings about are exactly those in which every field is
either as without the environment, or such that a variable can land on it and give it. -/
theorem C141_reach (b : Build) (fm : Formats) (calls : List RegCall) (w : World) (skip : Bool) (v : Value)
    (h : ∀ env, (register b fm calls).buildValue { w with env := env } skip = .ok v) (hp : ∀ e ∈ firsts (offers b fm calls), Proper e.2)
    (name pre P : String) (hnew : ∀ a ∈ offers b fm calls, a.1 ≠ name) (hP : Trimmed pre P) (hne : P ≠ "")
    (structs : Nat → List (String × Ty)) (k : Nat) (fs : List (String × Ty)) (hf : (fs.map Prod.fst).Nodup) (ds : List (String × Data)) :
    (∃ env v', LegalEnv env ∧ (register b fm (calls ++ [.environment name pre])).buildValue { w with env := env } skip = .ok v' ∧ deAt structs k (.struct fs) v' = .ok (.struct ds)) ↔
      List.Forall₂ (fun f nd => nd.1 = f.1 ∧
        ((Reachable P f.1 ∧ Nameable (P ++ f.1) ∧ TextSayable f.2 nd.2) ∨ deAt structs k (.struct [f]) v = .ok (.struct [nd]))) fs ds := by
  constructor
  · rintro ⟨env, v', hl, hb, hd⟩
    obtain ⟨ds', e, hx⟩ := (C122_overrides b fm calls { w with env := env } skip v v' (h env) hp name pre P hnew hP hne hb structs k fs hf _).1 hd
    cases e
    refine hx.imp fun f nd ⟨h1, h2⟩ => ⟨h1, ?_⟩
    rcases h2 with ⟨s, ⟨before, var, after, he, hla, ht, -⟩, hr⟩ | ⟨-, h2⟩
    · obtain ⟨-, l1, l2, l3⟩ := hl.2 var (by rw [show env = before ++ var :: after from he]; simp)
      refine Or.inl ⟨((C122_reachable pre P hP hne f.1).1.1 ⟨var, hla⟩), lands_nameable hla l1 l2, (C141_text _ _).1 ⟨s, ?_, hr⟩⟩
      rw [show var.2 = os s from ht, nul_os] at l3
      exact l3
    · exact Or.inr h2
  · intro hx
    obtain ⟨vs, h1, h2, h3⟩ := env_for P fs ds
      (fun f nd => deAt structs k (.struct [f]) v = .ok (.struct [nd])) hf (hx.imp fun f nd h => h.2)
    have hlegal : LegalEnv (vs.map fun a => (os (P ++ a.1), os a.2)) := by
      constructor
      · rw [List.map_map, show (Prod.fst ∘ fun a : String × String => (os (P ++ a.1), os a.2)) = (fun s => os (P ++ s)) ∘ Prod.fst from rfl, ← List.map_map]
        refine h1.map ?_
        intro x y hxy
        have h4 : (P ++ x).toList = (P ++ y).toList := by
          have : (P ++ x).toList.map OsChar.chr = (P ++ y).toList.map OsChar.chr := hxy
          exact (List.map_injective_iff.2 fun a b h => OsChar.chr.inj h) this
        rw [String.toList_append, String.toList_append] at h4
        exact String.toList_inj.1 (List.append_cancel_left h4)
      · intro a ha
        obtain ⟨x, hx, rfl⟩ := List.mem_map.1 ha
        obtain ⟨-, -, ⟨q1, q2⟩, q3⟩ := h2 x hx
        refine ⟨?_, by rw [nul_os]; exact q1, by rw [nul_os]; exact q2, by rw [nul_os]; exact q3⟩
        intro e
        simp [os] at e
        exact hne e.1
    have gives : ∀ k s, EnvGives (vs.map fun a => (os (P ++ a.1), os a.2)) P k s ↔ (k, s) ∈ vs := by
      have lands : ∀ x ∈ vs, ∀ k, Lands P (os (P ++ x.1), os x.2) k ↔ x.1 = k := by
        intro x hx k
        have := (C122_reachable pre P hP hne x.1).2 (h2 x hx).2.1 (os x.2)
        exact ⟨fun h => lands_unique hne this h, fun h => h ▸ this⟩
      intro k s
      constructor
      · rintro ⟨before, var, after, he, hl, ht, -⟩
        have hm : var ∈ vs.map fun a => (os (P ++ a.1), os a.2) := by rw [he]; simp
        obtain ⟨x, hx, rfl⟩ := List.mem_map.1 hm
        have e1 := (lands x hx k).1 hl
        have e2 : x.2 = s := hasText_unique (var := (os (P ++ x.1), os x.2)) rfl ht
        rw [← e1, ← e2]; exact hx
      · intro hm
        obtain ⟨l, r, hlr⟩ := List.append_of_mem hm
        refine ⟨l.map fun a => (os (P ++ a.1), os a.2), _, r.map fun a => (os (P ++ a.1), os a.2), by rw [hlr]; simp, (lands _ hm k).2 rfl, rfl, ?_⟩
        rintro a ha ⟨hla, -⟩
        obtain ⟨x, hx, rfl⟩ := List.mem_map.1 ha
        have e := (lands x (by rw [hlr]; simp [hx]) k).1 hla
        rw [hlr, List.map_append, List.map_cons, List.nodup_append] at h1
        exact (List.nodup_cons.1 h1.2.1).1 (List.mem_map.2 ⟨x, hx, e⟩)
    obtain ⟨mx, hx', -⟩ := env_entry (w := { w with env := vs.map fun a => (os (P ++ a.1), os a.2) }) hP hne
    have hb := C14_add_last b fm calls (.environment name pre) _ skip (name, Layer.newEnvironment pre) (.map mx) v rfl hnew hx' (h _)
    refine ⟨_, _, hlegal, hb, ?_⟩
    rw [C122_overrides b fm calls _ skip v _ (h _) hp name pre P hnew hP hne hb structs k fs hf]
    refine ⟨ds, rfl, ?_⟩
    have hname : ∀ f nd, (f, nd) ∈ fs.zip ds → nd.1 = f.1 := fun f nd hm => by
      obtain ⟨i, hi⟩ := List.mem_iff_getElem?.1 hm
      rw [List.getElem?_zip_eq_some] at hi
      exact ((forall2_index hx).2 i _ _ hi.1 hi.2).1
    have h4 := List.forall₂_iff_zip.1 h3
    rw [List.forall₂_iff_zip]
    refine ⟨h4.1, fun {f nd} hm => ⟨hname f nd hm, ?_⟩⟩
    rcases h4.2 hm with ⟨s, hs, hr⟩ | ⟨hno, hq⟩
    · exact Or.inl ⟨s, (gives _ _).2 hs, hr⟩
    · exact Or.inr ⟨fun s hs => hno (List.mem_map_of_mem (f := Prod.fst) ((gives _ _).1 hs)), hq⟩

/-- **C141.** With the environment alone: an optional field may be left out, every other needs its variable. -/
theorem C141_alone (b : Build) (fm : Formats) (w : World) (skip : Bool) (name pre P : String) (hP : Trimmed pre P) (hne : P ≠ "")
    (structs : Nat → List (String × Ty)) (k : Nat) (fs : List (String × Ty)) (hf : (fs.map Prod.fst).Nodup) (ds : List (String × Data)) :
    (∃ env v, LegalEnv env ∧ (register b fm [.environment name pre]).buildValue { w with env := env } skip = .ok v ∧ deAt structs k (.struct fs) v = .ok (.struct ds)) ↔
      List.Forall₂ (fun f nd => nd.1 = f.1 ∧
        ((Reachable P f.1 ∧ Nameable (P ++ f.1) ∧ TextSayable f.2 nd.2) ∨ (nd.2 = .none ∧ ∃ t, f.2 = .option t))) fs ds := by
  have key := C141_reach b fm [] w skip (.map []) (fun _ => rfl) (by simp [offers, firsts]) name pre P (by simp [offers]) hP hne structs k fs hf ds
  rw [List.nil_append] at key
  rw [key]
  have one : ∀ f nd, (nd.1 = f.1 ∧ deAt structs k (.struct [f]) (.map []) = .ok (.struct [nd])) ↔ (nd.1 = f.1 ∧ nd.2 = .none ∧ ∃ t, f.2 = .option t) := by
    intro f nd
    rw [deAt, de_struct_ok _ [f] (by simp) _ (by simp)]
    constructor
    · rintro ⟨h0, ds, e, hd⟩
      cases e
      cases hd with
      | cons h1 _ => exact ⟨h0, missing_cases h1.2⟩
    · rintro ⟨h0, h1, t, h2⟩
      refine ⟨h0, _, rfl, .cons ⟨h0, ?_⟩ .nil⟩
      rw [h1, h2]; rfl
  constructor <;> intro h <;> refine h.imp fun f nd hx => ⟨hx.1, hx.2.imp_right fun hr => ?_⟩
  · exact ((one f nd).1 ⟨hx.1, hr⟩).2
  · exact ((one f nd).2 ⟨hx.1, hr⟩).2

/-- **C141.** What no environment does, on top of any layers: it does not unset an optional field, and does not change a field of a type that no text can be read as (a list, tuple, map,
section or unit). -/
theorem C141_never (b : Build) (fm : Formats) (calls : List RegCall) (w : World) (skip : Bool) (v v' : Value)
    (h : (register b fm calls).buildValue w skip = .ok v) (hp : ∀ e ∈ firsts (offers b fm calls), Proper e.2)
    (name pre P : String) (hnew : ∀ a ∈ offers b fm calls, a.1 ≠ name) (hP : Trimmed pre P) (hne : P ≠ "")
    (h' : (register b fm (calls ++ [.environment name pre])).buildValue w skip = .ok v')
    (structs : Nat → List (String × Ty)) (k : Nat) (fs : List (String × Ty)) (hf : (fs.map Prod.fst).Nodup) (ds ds' : List (String × Data))
    (hd : deAt structs k (.struct fs) v = .ok (.struct ds)) (hd' : deAt structs k (.struct fs) v' = .ok (.struct ds'))
    (i : Nat) (f : String × Ty) (x x' : String × Data) (hi : fs[i]? = some f) (hx : ds[i]? = some x) (hx' : ds'[i]? = some x') :
    (x.2 ≠ .none → x'.2 ≠ .none) ∧ ((∀ s, ¬ TextFits f.2 s) → x' = x) := by
  obtain ⟨ds1, e, h1⟩ := (C122_overrides b fm calls w skip v v' h hp name pre P hnew hP hne h' structs k fs hf _).1 hd'
  cases e
  obtain ⟨n1, h2⟩ := (forall2_index h1).2 i f x' hi hx'
  have hsame : deAt structs k (.struct [f]) v = .ok (.struct [x']) → x' = x := by
    intro hs
    obtain ⟨m, rfl⟩ := struct_map hd
    have hm := (uniqueKeys_map.1 ((C08_map b fm calls w skip _ h).2 hp)).1
    rw [deAt, de_struct_ok _ fs hf _ hm] at hd
    rw [deAt, de_struct_ok _ [f] (by simp) _ hm] at hs
    obtain ⟨_, e, hd⟩ := hd
    cases e
    obtain ⟨_, e, hs⟩ := hs
    cases e
    obtain ⟨a1, a2⟩ := (forall2_index hd).2 i f x hi hx
    cases hs with | cons hs _ =>
    have := hs.2.symm.trans a2
    exact Prod.ext (n1.trans a1.symm) (Outcome.ok.inj this)
  rcases h2 with ⟨s, -, hr⟩ | ⟨-, h2⟩
  · refine ⟨fun _ e => ?_, fun hno => absurd ((C122_fits _ _).1 ⟨_, hr⟩) (hno s)⟩
    rw [e] at hr
    generalize f.2 = T at hr
    cases hr
  · rw [hsame h2]; exact ⟨fun h => h, fun _ => rfl⟩

/-! ## Examples -/

/-- `port` can be given any number and `name` any text, over whatever the defaults are; the section stays as it is. -/
example (port : IntOf .u16) (s : String) (hs : '\x00' ∉ s.toList) :
    ∃ env v', LegalEnv env ∧ (register exB1 exFormats (exEnvCalls ++ [.environment "env" " APP_"])).buildValue { exEnvWorld with env := env } false = .ok v' ∧
      deAt exNoStructs 0 (.struct exEnvTy) v' = .ok (.struct [("port", .int .u16 port), ("name", .str s), ("ui", .struct [("dark", .bool true)])]) := by
  refine (C141_reach exB1 exFormats exEnvCalls exEnvWorld false _ (fun _ => rfl) exEnv_proper "env" " APP_" "APP_" (by decide) exEnv_prefix (by decide) exNoStructs 0 exEnvTy (by decide) _).2
    (.cons ⟨rfl, Or.inl ⟨?_, ?_, .int _ (by simp [Upto64])⟩⟩ (.cons ⟨rfl, Or.inl ⟨?_, ?_, .string hs⟩⟩ (.cons ⟨rfl, Or.inr rfl⟩ .nil)))
  · exact ⟨by decide, by decide⟩
  · exact ⟨by decide, by decide⟩
  · exact ⟨by decide, by decide⟩
  · exact ⟨by decide, by decide⟩

/-- No environment turns the section's `dark` off. -/
example : ¬ ∃ env v', LegalEnv env ∧ (register exB1 exFormats (exEnvCalls ++ [.environment "env" " APP_"])).buildValue { exEnvWorld with env := env } false = .ok v' ∧
      deAt exNoStructs 0 (.struct exEnvTy) v' = .ok (.struct [("port", .int .u16 ⟨1, by decide⟩), ("name", .str ""), ("ui", .struct [("dark", .bool false)])]) := by
  rw [C141_reach exB1 exFormats exEnvCalls exEnvWorld false _ (fun _ => rfl) exEnv_proper "env" " APP_" "APP_" (by decide) exEnv_prefix (by decide) exNoStructs 0 exEnvTy (by decide)]
  intro h
  obtain ⟨-, h⟩ := (forall2_index h).2 2 ("ui", .struct [("dark", .bool)]) ("ui", .struct [("dark", .bool false)]) rfl rfl
  rcases h with ⟨-, -, h⟩ | h
  · cases h
  · have : deAt exNoStructs 0 (.struct [("ui", .struct [("dark", .bool)])]) (Value.newMap.merge (.map [("port", .integer ⟨80, by decide⟩), ("name", .string "a"), ("ui", .map [("dark", .boolean true)])])) =
      .ok (.struct [("ui", .struct [("dark", .bool true)])]) := rfl
    cases this.symm.trans h

/-- Without other layers, an optional name may be missing. -/
example (b : Build) (fm : Formats) (w : World) (x : F64) : ∃ env v, LegalEnv env ∧ (register b fm [.environment "env" " APP_"]).buildValue { w with env := env } false = .ok v ∧
    deAt exNoStructs 0 (.struct [("scale", .f64), ("name", .option .string)]) v = .ok (.struct [("scale", .f64 x), ("name", .none)]) :=
  (C141_alone b fm w false "env" " APP_" "APP_" exEnv_prefix (by decide) exNoStructs 0 _ (by decide) _).2
    (.cons ⟨rfl, Or.inl ⟨⟨by decide, by decide⟩, ⟨by decide, by decide⟩, .f64 x⟩⟩ (.cons ⟨rfl, Or.inr ⟨rfl, _, rfl⟩⟩ .nil))

/-- Whatever `APP_name` is, the section is as without it. -/
example (v' : Value) (h' : (register exB1 exFormats (exEnvCalls ++ [.environment "env" " APP_"])).buildValue exEnvWorld false = .ok v')
    (ds' : List (String × Data)) (hd' : deAt exNoStructs 0 (.struct exEnvTy) v' = .ok (.struct ds')) (x' : String × Data) (hx' : ds'[2]? = some x') :
    x' = ("ui", .struct [("dark", .bool true)]) :=
  (C141_never exB1 exFormats exEnvCalls exEnvWorld false _ v' rfl exEnv_proper "env" " APP_" "APP_" (by decide) exEnv_prefix (by decide) h' exNoStructs 0 exEnvTy (by decide)
    [("port", .int .u16 ⟨80, by decide⟩), ("name", .str "a"), ("ui", .struct [("dark", .bool true)])] ds' rfl hd' 2 _ _ x' rfl rfl hx').2 fun s h => nomatch h

example : (∃ s : String, '\x00' ∉ s.toList ∧ TextReads (.option .f32) s (.some (.f32 ⟨.nan, trivial⟩))) ∧ ¬ ∃ s : String, '\x00' ∉ s.toList ∧ TextReads (.option .string) s .none := by
  rw [C141_text, C141_text]
  exact ⟨.some (.f32 _), fun h => nomatch h⟩

end Verif.Props
