import Verif.Props.Killed
import Verif.Props.TomlMacro
/-!
# C130, for TOML: defaults with `None`, which the format leaves out
-/
namespace Verif.Props
open Verif Verif.Spec

/-- **C130.** `C130_next` for formats that leave out `None` (and may refuse the defaults altogether): from a machine on which the program was never started,
after starts killed at any points (or finished), a start that is finished shows the defaults at every path, up to the kind of integers; only `None` entries
of tables inside lists may be missing; except where a file that holds only a beginning of the text reads as a map that says something there. -/
theorem C130_toml {limit : Nat} (b : Build) (fm : Formats) (w w1 w2 : World) (args : MacroArgs) (hc : NeverStarted b w args)
    (hs : Starts b fm args w w1) (c : Config) (h : createConfig b fm w1 args = .ok (c, w2)) (dv : Value) (hdv : valueMapMacro args.default = some dv)
    (hf : FormatsFor limit b fm dv) :
    ∃ v, c.buildValue w2 true = .ok v ∧ UniqueKeys v ∧
      (∀ p, AlikeBelowListsAt dv v p ∨ ∃ x, Leftover b fm w args dv w2 (.ok x) ∧ x.isMap = true ∧ ¬ Silent x p ∧ view v p = view x p) ∧
      (c.buildValue w2 false = .ok v ∨ ∃ e, Leftover b fm w args dv w2 (.error e) ∧ c.buildValue w2 false = .error e) := by
  have hdm : dv.isMap = true := by
    obtain ⟨x, hx, hxm, -⟩ := C19_value_map args.default
    rw [hdv] at hx; cases hx; exact hxm
  have hdu : UniqueKeys dv := (C22_macros args.default hc.uniqueKeys [] (by simp)).1 dv hdv
  refine next_general hc hs h hdv
    (At := fun o p => (NullEntry dv p → o = some .none ∨ (o = none ∧ ∃ i, Step.idx i ∈ p)) ∧
      (¬ NullEntry dv p → (view dv p = none ∧ o = none) ∨ ∃ h h', view dv p = some h ∧ o = some h' ∧ HeadAlike h h'))
    ⟨alikeMaybe_of_alike (Alike.refl dv), hdu⟩ (readsAs_maybe hdu hf) ?_
    (fun hdm hdu p => below_of_alike (Alike.symm (alike_of_same (C02_empty_merge dv hdm hdu))) p)
  rintro x ⟨hx, hxu⟩
  refine ⟨alikeMaybe_isMap hx hdm, hxu, fun p hs => ⟨fun hn => ?_, (hx p).2⟩⟩
  rcases (hx p).1 hn with h | h
  · exact Or.inl h
  · refine Or.inr ⟨h, ?_⟩
    by_contra hno
    rw [not_exists] at hno
    exact hs (silent_missing hx hn h hno)

/-! ### Examples -/

theorem exOptNever : NeverStarted exB1 exFresh exOptArgs where
  names := exOpt_clean.names
  uniqueKeys := exOpt_clean.uniqueKeys
  absent := exOpt_clean.absent
  places := exOpt_clean.places
  env := exOpt_clean.env

/-- A start is killed before it has written a byte (the file is created, and empty), a second is finished: the defaults with their `None` are all there, or
the empty file says otherwise. -/
example : ∃ w1 c w2, StartDies exB1 ⟨exToml, exToml⟩ exFresh exOptArgs w1 ∧ w1.disk (w1.locate (os "/b/f.toml")) = .file [] none none ∧
    createConfig exB1 ⟨exToml, exToml⟩ w1 exOptArgs = .ok (c, w2) ∧ ∃ v, c.buildValue w2 true = .ok v ∧
      ∀ p, AlikeBelowListsAt exOptDefaults v p ∨
        ∃ x, Leftover exB1 ⟨exToml, exToml⟩ exFresh exOptArgs exOptDefaults w2 (.ok x) ∧ x.isMap = true ∧ ¬ Silent x p ∧ view v p = view x p := by
  obtain ⟨text, ht⟩ := ((exToml_like 80).prints exOptDefaults).2 exOpt_holds
  obtain ⟨w1, hk, hd⟩ := C130_every_beginning exB1 ⟨exToml, exToml⟩ exFresh exOptArgs (by decide) _ exOpt_dv [] [] ⟨"one", [.path "/b"], some true⟩ rfl
    (by simp) rfl (by decide) (os "/b/f.toml") rfl (by decide) rfl exToml (Or.inl ⟨by decide, rfl, rfl⟩) text ht [] (List.nil_prefix)
  obtain ⟨c, w2, -, hrun, -⟩ := C60_order exB1 ⟨exToml, exToml⟩ w1 exOptArgs
  obtain ⟨v, hv, -, hp, -⟩ := C130_toml exB1 ⟨exToml, exToml⟩ exFresh w1 w2 exOptArgs exOptNever (.killed .none hk) c hrun _ exOpt_dv exOpt_formats
  exact ⟨w1, c, w2, hk, hd, hrun, v, hv, hp⟩

end Verif.Props
