import Verif.Spec.Chain
import Verif.Props.Config
/-!
# C100: chaining is registering in place
-/
namespace Verif.Props
open Spec

theorem chain_supported (b : Build) (fm : Formats) (c : Config) (call : RegCall) (h : Supported b call) :
    call.chain b fm c = .ok (call.apply b fm c) := by
  cases call with
  | layer name l => rfl
  | environment name pre => rfl
  | memory name v => rfl
  | file name path =>
    simp only [RegCall.chain, RegCall.apply]
    rcases h with ⟨h1, h2⟩ | ⟨h1, h2⟩
    · exact (C12_with b fm c _ name path).1.2 (by rw [C12_accepts b fm c name path fm.toml (Or.inl ⟨h1, h2, rfl⟩)])
    · exact (C12_with b fm c _ name path).1.2 (by rw [C12_accepts b fm c name path fm.json (Or.inr ⟨h1, h2, rfl⟩)])

theorem chain_unsupported (b : Build) (fm : Formats) (c : Config) (call : RegCall) (h : ¬ Supported b call) :
    call.apply b fm c = c ∧ ∃ name path ext, call = .file name path ∧ ShownExtension path ext ∧
      call.chain b fm c = .error (.configLayerError (.unsupportedExtension ext)) := by
  cases call with
  | layer name l => exact absurd trivial h
  | environment name pre => exact absurd trivial h
  | memory name v => exact absurd trivial h
  | file name path =>
    have h' := not_or.1 h
    obtain ⟨ext, he, h1, h2⟩ := C12_rejects b fm c name path h'.1 h'.2
    refine ⟨by simp only [RegCall.apply, he], name, path, ext, rfl, ⟨h1, h2⟩, ?_⟩
    exact ((C12_with b fm c c name path).2 _).2 (by rw [he])

/-- **C100.** If every file named has a supported extension, chaining gives exactly the configuration that registering in place gives,
from whatever configuration one starts. -/
theorem C100_same (b : Build) (fm : Formats) (calls : List RegCall) (h : ∀ call ∈ calls, Supported b call) (c : Config) :
    chained b fm c calls = .ok (calls.foldl (RegCall.apply b fm) c) := by
  induction calls generalizing c with
  | nil => rfl
  | cons call calls ih =>
    simp only [chained, chain_supported b fm c call (h call (List.mem_cons_self ..)), List.foldl_cons]
    exact ih (fun a ha => h a (List.mem_cons_of_mem _ ha)) _

/-- **C100.** Otherwise the chain ends with the error of the first unsupported file, which names its extension; what comes later does not matter. -/
theorem C100_first_error (b : Build) (fm : Formats) (pre post : List RegCall) (bad : RegCall) (hpre : ∀ call ∈ pre, Supported b call)
    (hbad : ¬ Supported b bad) (c : Config) :
    ∃ name path ext, bad = .file name path ∧ ShownExtension path ext ∧
      chained b fm c (pre ++ bad :: post) = .error (.configLayerError (.unsupportedExtension ext)) := by
  induction pre generalizing c with
  | nil =>
    obtain ⟨-, name, path, ext, h1, h2, h3⟩ := chain_unsupported b fm c bad hbad
    exact ⟨name, path, ext, h1, h2, by simp only [List.nil_append, chained, h3]⟩
  | cons call pre ih =>
    obtain ⟨name, path, ext, h1, h2, h3⟩ := ih (fun a ha => hpre a (List.mem_cons_of_mem _ ha)) (call.apply b fm c)
    refine ⟨name, path, ext, h1, h2, ?_⟩
    simp only [List.cons_append, chained, chain_supported b fm c call (hpre call (List.mem_cons_self ..))]
    exact h3

/-- **C100.** Registering in place goes on after an unsupported file, as if it had not been named: the result is that of chaining the rest. -/
theorem C100_in_place (b : Build) (fm : Formats) (calls : List RegCall) (c : Config) :
    chained b fm c (calls.filter fun call => Supported b call) = .ok (calls.foldl (RegCall.apply b fm) c) := by
  rw [C100_same b fm _ (fun call hc => of_decide_eq_true (List.mem_filter.1 hc).2)]
  congr 1
  induction calls generalizing c with
  | nil => rfl
  | cons call calls ih =>
    by_cases h : Supported b call
    · rw [List.filter_cons_of_pos (by simpa using h), List.foldl_cons, List.foldl_cons]; exact ih _
    · rw [List.filter_cons_of_neg (by simpa using h), List.foldl_cons, (chain_unsupported b fm c call h).1]; exact ih _

/-- **C100.** A chain succeeds exactly if every file it names has a supported extension. -/
theorem C100_iff (b : Build) (fm : Formats) (calls : List RegCall) (c : Config) :
    (∃ c', chained b fm c calls = .ok c') ↔ ∀ call ∈ calls, Supported b call := by
  constructor
  · rintro ⟨c', h⟩
    induction calls generalizing c with
    | nil => simp
    | cons call calls ih =>
      by_cases hs : Supported b call
      · simp only [chained, chain_supported b fm c call hs] at h
        intro a ha
        rcases List.mem_cons.1 ha with rfl | ha
        · exact hs
        · exact ih _ h a ha
      · obtain ⟨-, _, _, _, -, -, he⟩ := chain_unsupported b fm c call hs
        simp [chained, he] at h
  · intro h; exact ⟨_, C100_same b fm calls h c⟩

/-- The calls of the running example, chained: a YAML file between a memory layer and an environment layer ends the chain; in place it is skipped. -/
example : (∃ name path ext, RegCall.file "f" (os "/x/y.yaml") = .file name path ∧ ShownExtension path ext ∧
      chained exB1 exFormats Config.new [.memory "d" exA, .file "f" (os "/x/y.yaml"), .environment "e" "APP_"] =
        .error (.configLayerError (.unsupportedExtension ext))) ∧
    chained exB1 exFormats Config.new [.memory "d" exA, .environment "e" "APP_"] =
      .ok (register exB1 exFormats [.memory "d" exA, .file "f" (os "/x/y.yaml"), .environment "e" "APP_"]) := by
  refine ⟨C100_first_error exB1 exFormats [.memory "d" exA] [.environment "e" "APP_"] (.file "f" (os "/x/y.yaml")) ?_ (by decide) Config.new, ?_⟩
  · intro call hc; rw [List.mem_singleton.1 hc]; trivial
  · have := C100_in_place exB1 exFormats [.memory "d" exA, .file "f" (os "/x/y.yaml"), .environment "e" "APP_"] Config.new
    have hd : ¬ Supported exB1 (.file "f" (os "/x/y.yaml")) := by decide
    rw [List.filter_cons_of_pos (by exact decide_eq_true trivial), List.filter_cons_of_neg (by simpa using hd),
      List.filter_cons_of_pos (by exact decide_eq_true trivial)] at this
    exact this

/-- A chain of every kind of call that succeeds. -/
example (l : Layer) : chained exB1 exFormats Config.new [.memory "d" exA, .layer "u" l, .file "f" (os "/x/y.toml"), .environment "e" "APP_"] =
    .ok (register exB1 exFormats [.memory "d" exA, .layer "u" l, .file "f" (os "/x/y.toml"), .environment "e" "APP_"]) := by
  refine C100_same exB1 exFormats _ ?_ Config.new
  intro call hc
  simp only [List.mem_cons, List.not_mem_nil, or_false] at hc
  rcases hc with rfl | rfl | rfl | rfl <;> first | trivial | exact Or.inl ⟨rfl, by decide⟩

end Verif.Props
