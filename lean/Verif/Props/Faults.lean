import Verif.Spec.Faults
import Verif.Props.Editing
/-!
# C104: programs that edit one settings file while things go wrong
-/
namespace Verif.Props
open Verif Verif.Spec

variable {ι : Type} [DecidableEq ι] {cd : Codec} {path : OsStr} {omits : Bool} {G : Value → Prop}

theorem file_noNulls (hz : NoNulls omits cd) {w : World} {v : Value} (h : (Layer.file (textHandler cd) path).readValue w = .ok v) :
    omits = true → ∀ p, ¬ NullEntry v p := by
  intro ho
  cases he : w.pathExists path with
  | true =>
    obtain ⟨text, doc, wr, -, h2, h3⟩ := (C56_content cd w path he v).1 h
    exact hz ho text doc v (by first | exact h2 | exact h2.1) (by first | exact h3 | exact h3.2)
  | false =>
    simp only [Layer.readValue, he] at h
    cases h
    rintro p ⟨⟨q, k, rfl⟩, h⟩
    rcases q with _ | ⟨s, q⟩
    · cases h
    · cases s <;> cases h

/-- What holds at every point of a run. -/
structure HappeningInv (omits : Bool) (cd : Codec) (path : OsStr) (s : (ι → Option Value) × World) (o : Origins ι) : Prop where
  readable : Readable path s.2
  file : ∀ or, o.file = some or → (omits = true → ∀ p, ¬ NullEntry or.base p) ∧
    ∃ v, (Layer.file (textHandler cd) path).readValue s.2 = .ok v ∧ Has omits or.base or.settings v
  lost : o.file = none → ∀ v, (Layer.file (textHandler cd) path).readValue s.2 = .ok v → v.isMap = false
  mem : ∀ i, (s.1 i = none ∧ o.mem i = none) ∨ ∃ m or, s.1 i = some m ∧ o.mem i = some or ∧ UniqueKeys m ∧
    (omits = true → ∀ p, ¬ NullEntry or.base p) ∧ HasInMemory omits or.base or.settings m

theorem found_inv (hz : NoNulls omits cd) (w : World) :
    (∀ or, found cd path w = some or → (omits = true → ∀ p, ¬ NullEntry or.base p) ∧
      ∃ v, (Layer.file (textHandler cd) path).readValue w = .ok v ∧ Has omits or.base or.settings v) ∧
    (found cd path w = none → ∀ v, (Layer.file (textHandler cd) path).readValue w = .ok v → v.isMap = false) := by
  unfold found
  cases h : (Layer.file (textHandler cd) path).readValue w with
  | error e =>
    constructor
    · intro or ho; cases ho
    · intro _ v hv; cases hv
  | ok v =>
    dsimp only
    cases hm : v.isMap with
    | true =>
      refine ⟨fun or ho => ?_, fun ho => by simp at ho⟩
      simp only [if_true, Option.some.injEq] at ho
      subst ho
      exact ⟨file_noNulls hz h, v, rfl, has_refl hm⟩
    | false => exact ⟨fun or ho => by simp at ho, fun _ v' hv => by cases hv; exact hm⟩

theorem happeningInv_step (hk : Keeps omits cd G) (hz : NoNulls omits cd) {s s' : (ι → Option Value) × World} {a : Happening ι} {o : Origins ι}
    (h : HappeningInv omits cd path s o) (hs : HappeningStep cd path G s a s') : HappeningInv omits cd path s' (o.after cd path s'.2 a) := by
  cases hs with
  | @outside mem w w' ho =>
    obtain ⟨f1, f2⟩ := found_inv (path := path) hz w'
    exact ⟨ho.2 h.readable, f1, f2, h.mem⟩
  | @quit mem w i =>
    refine ⟨h.readable, h.file, h.lost, fun j => ?_⟩
    by_cases hj : j = i
    · subst hj; exact Or.inl ⟨by simp, by simp [Origins.after]⟩
    · have := h.mem j
      simpa [Origins.after, Function.update_of_ne hj] using this
  | call hs =>
    cases hs with
    | @load mem w v i h1 h2 =>
      cases hf : o.file with
      | none => have := h.lost hf v h1; rw [h2] at this; cases this
      | some or =>
        obtain ⟨n1, v', e, hv⟩ := h.file or hf
        dsimp only at e
        rw [h1] at e; cases e
        refine ⟨h.readable, h.file, h.lost, fun j => ?_⟩
        by_cases hj : j = i
        · subst hj
          exact Or.inr ⟨v, or, by simp, by simp [Origins.after, hf], file_unique h1, n1, has_inMemory hv⟩
        · have := h.mem j
          simpa [Origins.after, Function.update_of_ne hj] using this
    | @set mem w v v' i k x h1 hu h2 =>
      refine ⟨h.readable, h.file, h.lost, fun j => ?_⟩
      by_cases hj : j = i
      · subst hj
        rcases h.mem j with ⟨e, -⟩ | ⟨m, or, e1, e2, e3, e4, e5⟩
        · dsimp only at e; rw [h1] at e; cases e
        · dsimp only at e1; rw [h1] at e1; cases e1
          refine Or.inr ⟨v', ⟨or.base, or.settings ++ [(k, x)]⟩, by simp, by simp [Origins.after, e2], ?_, e4, has_set e5 h2⟩
          have := (C22_unique_keys v x e3 hu k 0).2.2.2.2.2.2.1
          rw [h2] at this; exact this
      · have := h.mem j
        simpa [Origins.after, Function.update_of_ne hj] using this
    | @save mem w w' v i h1 h2 h3 =>
      rcases h.mem i with ⟨e', -⟩ | ⟨m, or, e1, e2, e3, e4, e5⟩
      · dsimp only at e'; rw [h1] at e'; cases e'
      dsimp only at e1; rw [h1] at e1; cases e1
      obtain ⟨⟨f1, f2⟩, hcases⟩ := C57_write cd w path v _ _ h2
      have hp : ∃ text, cd.print v.toData = .ok text := by
        rcases hcases with ⟨m, -, e, -⟩ | ⟨t, e, -, -, e2, -⟩ | ⟨t, n, code, r, -, -, -, e2, -⟩ | ⟨t, r, e, -⟩
        · cases e
        · cases e2
        · cases e2
        · exact ⟨t, e⟩
      obtain ⟨text, hp⟩ := hp
      obtain ⟨doc, t, hq, hd, hut, hom⟩ := hk v text h3 e3 hp
      obtain ⟨v2, hv2, ha, -⟩ := C66_reads t hut doc hd
      have r2 := C57_read_back cd w w' path v v2 text doc h2 h.readable hp hq hv2
      have ha' : if omits then AlikeOmitting v v2 else Alike v v2 := by
        cases omits with
        | false => rw [if_neg (by decide)] at hom ⊢; rw [← hom]; exact ha
        | true => rw [if_pos rfl] at hom ⊢; exact alikeOmitting_of hom ha
      refine ⟨file_readable r2, fun or' ho => ?_, fun ho => ?_, h.mem⟩
      · simp only [Origins.after, e2, Option.some.injEq] at ho
        subst ho
        exact ⟨e4, v2, r2, has_saved e5 e4 ha'⟩
      · simp only [Origins.after, e2] at ho
        cases ho

theorem happeningInv_run (hk : Keeps omits cd G) (hz : NoNulls omits cd) {s t : ((ι → Option Value) × World) × Origins ι} {events : List (Happening ι)}
    (hr : HappeningRun cd path G s events t) : HappeningInv omits cd path s.1 s.2 → HappeningInv omits cd path t.1 t.2 := by
  induction hr with
  | nil s => exact fun h => h
  | cons hs _ ih => exact fun h => ih (happeningInv_step hk hz h hs)

omit [DecidableEq ι] in
theorem happeningInv_start (hz : NoNulls omits cd) {w : World} (h : Readable path w) :
    HappeningInv omits cd path ((fun _ => none : ι → Option Value), w) (Origins.start cd path w) := by
  obtain ⟨f1, f2⟩ := found_inv (path := path) hz w
  exact ⟨h, f1, f2, fun _ => Or.inl ⟨rfl, rfl⟩⟩

/-- **C104.** Whatever happens and in whatever order: whenever the origins say that the file is a map with settings made, it is; whenever they do not, it cannot
be read as a map; and every program holds the map it found when it loaded with the settings made in it since, whatever happened to the file. -/
theorem C104_history (hk : Keeps omits cd G) (hz : NoNulls omits cd) (w₀ w : World) (hr₀ : Readable path w₀) (events : List (Happening ι))
    (mem : ι → Option Value) (o : Origins ι) (hr : HappeningRun cd path G ((fun _ => none, w₀), Origins.start cd path w₀) events ((mem, w), o)) :
    (∀ or, o.file = some or → ∃ v, (Layer.file (textHandler cd) path).readValue w = .ok v ∧ Has omits or.base or.settings v) ∧
    (o.file = none → ∀ v, (Layer.file (textHandler cd) path).readValue w = .ok v → v.isMap = false) ∧
    (∀ i m, mem i = some m → ∃ or, o.mem i = some or ∧ HasInMemory omits or.base or.settings m) := by
  have h := happeningInv_run hk hz hr (happeningInv_start hz hr₀)
  refine ⟨fun or ho => (h.file or ho).2, h.lost, fun i m hi => ?_⟩
  rcases h.mem i with ⟨e, -⟩ | ⟨m', or, e1, e2, -, -, e4⟩
  · dsimp only at e; rw [hi] at e; cases e
  · dsimp only at e1; rw [hi] at e1; cases e1
    exact ⟨or, e2, e4⟩

/-- **C104.** A save that fails, or whose program is killed at any point, is one of the things that may happen from outside: apart from the file nothing changes,
and what is left of the file may be read. -/
theorem C104_interrupted (v : Value) (w w' : World) (h : CrashWorld cd path v w w') : Outside path w w' := by
  rcases h with rfl | ⟨content, ph, hp, hs⟩
  · exact ⟨rfl, id⟩
  · rcases writeSteps_inv hs with h | ⟨done, rest, w1, h1, h2, h3, h4⟩
    · cases h; exact ⟨rfl, id⟩
    · obtain ⟨ho, r, hd, hr⟩ := onlyAt_open h3
      dsimp only at h4
      subst h4
      have hl := (ho.trans (onlyAt_append w1 (w.locate path) done)).locate
      refine ⟨hl, fun hread bs code wr he => ?_⟩
      rw [hl, append_file hd] at he
      cases he
      rcases hr with ⟨-, hr⟩ | ⟨bs', hr⟩
      · cases hr
      · exact hread _ _ _ hr

theorem happeningRun_append {s t : ((ι → Option Value) × World) × Origins ι} {a b : List (Happening ι)} (h : HappeningRun cd path G s (a ++ b) t) :
    ∃ u, HappeningRun cd path G s a u ∧ HappeningRun cd path G u b t := by
  induction a generalizing s with
  | nil => exact ⟨s, .nil s, h⟩
  | cons x a ih =>
    cases h with
    | cons h1 h2 =>
      obtain ⟨u, h3, h4⟩ := ih h2
      exact ⟨u, .cons h1 h3, h4⟩

theorem happeningRun_trans {s t u : ((ι → Option Value) × World) × Origins ι} {a b : List (Happening ι)} (h : HappeningRun cd path G s a t)
    (h' : HappeningRun cd path G t b u) : HappeningRun cd path G s (a ++ b) u := by
  induction h with
  | nil => exact h'
  | cons h1 _ ih => exact .cons h1 (ih h')

theorem origin_since {i : ι} {s t : ((ι → Option Value) × World) × Origins ι} {events : List (Happening ι)} (hr : HappeningRun cd path G s events t) :
    (∀ a ∈ events, a ≠ .call (.load i) ∧ a ≠ .quit i) → ∀ or : Origin, s.2.mem i = some or →
      t.2.mem i = some ⟨or.base, or.settings ++ settingsOf i events⟩ := by
  induction hr with
  | nil s => intro _ or h; simpa [settingsOf] using h
  | @cons s s' o t a as hs _ ih =>
    intro hn or h
    have hn' : ∀ a ∈ as, a ≠ .call (.load i) ∧ a ≠ .quit i := fun a ha => hn a (List.mem_cons_of_mem _ ha)
    have ha := hn a (List.mem_cons_self ..)
    have h : o.mem i = some or := h
    cases a with
    | outside => rw [ih hn' or h]; rfl
    | quit j =>
      have hj : i ≠ j := by rintro rfl; exact ha.2 rfl
      rw [ih hn' or (by simpa [Origins.after, Function.update_of_ne hj] using h)]
      rfl
    | call e =>
      cases e with
      | load j =>
        have hj : i ≠ j := by rintro rfl; exact ha.1 rfl
        rw [ih hn' or (by simpa [Origins.after, Function.update_of_ne hj] using h)]
        rfl
      | save j => rw [ih hn' or h]; rfl
      | set j k x =>
        by_cases hj : j = i
        · subst hj
          rw [ih hn' ⟨or.base, or.settings ++ [(k, x)]⟩ (by simp [Origins.after, h])]
          simp [settingsOf]
        · rw [ih hn' or (by simpa [Origins.after, Function.update_of_ne (Ne.symm hj)] using h)]
          simp [settingsOf, hj]

/-- **C104.** A program that loaded the file and saves successfully later repairs it, whatever happened to the file in the meantime: afterwards the file is what it
was when this program loaded it, with the program's own settings since then. -/
theorem C104_repair (hk : Keeps omits cd G) (hz : NoNulls omits cd) (w₀ w₁ w : World) (hr₀ : Readable path w₀) (before between : List (Happening ι)) (i : ι)
    (hi : ∀ a ∈ between, a ≠ .call (.load i) ∧ a ≠ .quit i) (mem₁ mem : ι → Option Value) (o₁ o : Origins ι)
    (hr₁ : HappeningRun cd path G ((fun _ => none, w₀), Origins.start cd path w₀) before ((mem₁, w₁), o₁))
    (hr : HappeningRun cd path G ((mem₁, w₁), o₁) (.call (.load i) :: between ++ [.call (.save i)]) ((mem, w), o)) :
    ∃ v₁ v, (Layer.file (textHandler cd) path).readValue w₁ = .ok v₁ ∧ (Layer.file (textHandler cd) path).readValue w = .ok v ∧
      Has omits v₁ (settingsOf i between) v := by
  have h1 := happeningInv_run hk hz hr₁ (happeningInv_start hz hr₀)
  have h2 := happeningInv_run hk hz hr h1
  obtain ⟨u, hu1, hu2⟩ := happeningRun_append hr
  cases hu1 with
  | cons hs hu =>
    cases hs with
    | call hs =>
      cases hs with
      | @load _ _ v₁ _ e1 e2 =>
        cases hf : o₁.file with
        | none => have := h1.lost hf v₁ e1; rw [e2] at this; cases this
        | some or =>
          obtain ⟨-, v', e3, a1⟩ := h1.file or hf
          dsimp only at e3
          rw [e1] at e3; cases e3
          have hm := origin_since hu hi or (by simp [Origins.after, hf])
          cases hu2 with
          | cons hs' hnil =>
            cases hnil with
            | nil =>
              obtain ⟨-, v, e4, a2⟩ := h2.file _ hm
              exact ⟨v₁, v, e1, e4, has_trans a1 a2⟩

/-! ### Concrete cases

A program is killed while it saves, after the first byte. The format of the example omits `None` entries. -/

def exFaultCodec : Codec :=
  { parse := fun s => if s = "a" then .ok (.map [(.str "a", .str "1")])
      else if s = "ab" then .ok (.map [(.str "a", .str "1"), (.str "b", .str "2")])
      else if s = "abc" then .ok (.map [(.str "a", .str "1"), (.str "b", .str "2"), (.str "c", .str "3")])
      else .error "syntax error",
    print := fun d => match d with
      | .map [_] => .ok "a"
      | .map [_, (_, .none)] => .ok "a"
      | .map [_, _] => .ok "ab"
      | .map [_, _, _] => .ok "abc"
      | _ => .error "unsupported" }
def exFaultA : Value := .map [("a", .string "1")]
def exFaultN : Value := .map [("a", .string "1"), ("b", .none)]
def exFaultAB : Value := .map [("a", .string "1"), ("b", .string "2")]
def exFaultABC : Value := .map [("a", .string "1"), ("b", .string "2"), ("c", .string "3")]
def exFaultG (v : Value) : Prop := v = exFaultA ∨ v = exFaultN ∨ v = exFaultAB ∨ v = exFaultABC
def exFaultDisk (text : String) : World := { exDisk with disk := fun s => if s = 1 then .file (utf8 text) none none else exDisk.disk s }
def exFaultFile : Layer := .file (textHandler exFaultCodec) (os "/a.toml")

theorem flat_null {m : Entries} (h : ∀ e ∈ m, ∃ s, e.2 = .string s) : ∀ p, ¬ NullEntry (.map m) p := by
  rintro p ⟨-, hp⟩
  rcases p with _ | ⟨s, p⟩
  · cases hp
  · cases s with
    | idx i => rw [view_idx_map] at hp; cases hp
    | key k =>
      rw [view_key_map] at hp
      cases hg : hmGet m k with
      | none => rw [hg] at hp; cases hp
      | some x =>
        rw [hg] at hp
        obtain ⟨t, ht⟩ := h _ (hmGet_mem hg)
        dsimp only at ht
        subst ht
        rcases p with _ | ⟨s, p⟩
        · cases hp
        · cases s <;> cases hp

theorem omitting_self {v : Value} (h : ∀ p, ¬ NullEntry v p) : Omitting v v := fun p => ⟨fun hp => absurd hp (h p), fun _ => rfl⟩

theorem exFault_keeps : Keeps true exFaultCodec exFaultG := by
  rintro v text (rfl | rfl | rfl | rfl) hu hp <;> cases hp
  · exact ⟨docOf exFaultA, exFaultA, by simp [exFaultCodec, exFaultA, docOf], presents_docOf _, hu,
      omitting_self (flat_null (by simp))⟩
  · refine ⟨docOf exFaultA, exFaultA, by simp [exFaultCodec, exFaultA, docOf], presents_docOf _, by simp [exFaultA, UniqueKeys, UniqueKeysMap, UniqueKeysEntry], ?_⟩
    show Omitting exFaultN exFaultA
    intro p
    rcases p with _ | ⟨s, p⟩
    · exact ⟨fun h => by { obtain ⟨⟨q, k, e⟩, -⟩ := h; simp at e }, fun _ => rfl⟩
    · cases s with
      | idx i => exact ⟨fun h => by { cases h.2 }, fun _ => rfl⟩
      | key k =>
        rw [exFaultN, exFaultA, view_key_map, view_key_map]
        by_cases hk : k = "b"
        · subst hk
          refine ⟨fun _ => rfl, fun hn => ?_⟩
          rcases p with _ | ⟨s, p⟩
          · exact absurd ⟨⟨[], "b", rfl⟩, rfl⟩ hn
          · cases s <;> rfl
        · have e : hmGet [("a", Value.string "1"), ("b", Value.none)] k = hmGet [("a", Value.string "1")] k := by
            simp [hmGet, Ne.symm hk]
          rw [e]
          refine ⟨fun hn => ?_, fun _ => rfl⟩
          have := hn.2
          rw [view_key_map, e, ← view_key_map] at this
          exact absurd ⟨hn.1, this⟩ (flat_null (by simp) _)
  · exact ⟨docOf exFaultAB, exFaultAB, by simp [exFaultCodec, exFaultAB, docOf], presents_docOf _, hu, omitting_self (flat_null (by simp))⟩
  · exact ⟨docOf exFaultABC, exFaultABC, by simp [exFaultCodec, exFaultABC, docOf], presents_docOf _, hu, omitting_self (flat_null (by simp))⟩

theorem exFault_noNulls : NoNulls true exFaultCodec := by
  intro _ text doc v hp hv
  simp only [exFaultCodec] at hp
  split at hp
  · cases hp; cases hv; exact flat_null (by simp [hmInsert])
  · split at hp
    · cases hp; cases hv; exact flat_null (by simp [hmInsert])
    · split at hp
      · cases hp; cases hv; exact flat_null (by simp [hmInsert])
      · cases hp

theorem exFault_killed : CrashWorld exFaultCodec (os "/a.toml") exFaultABC (exFaultDisk "ab") (exFaultDisk "a") := by
  have hs : WriteSteps (os "/a.toml") "abc" (.start, exFaultDisk "ab")
      (.writing (utf8 "bc"), ((exFaultDisk "ab").put 1 (.file [] none none)).appendBytes 1 (utf8 "a")) :=
    .step (.step .refl (.opened rfl)) (.piece (piece := utf8 "a") (rest := utf8 "bc"))
  have he : ((exFaultDisk "ab").put 1 (.file [] none none)).appendBytes 1 (utf8 "a") = exFaultDisk "a" := by
    show ((exFaultDisk "ab").put 1 (.file [] none none)).put 1 (.file (utf8 "a") none none) = _
    unfold World.put exFaultDisk
    congr 1
    funext s
    by_cases h : s = 1 <;> simp [h]
  rw [he] at hs
  exact Or.inr ⟨"abc", _, rfl, hs⟩

theorem exFault_read : exFaultFile.readValue (exFaultDisk "ab") = .ok exFaultAB ∧ exFaultFile.readValue (exFaultDisk "a") = .ok exFaultA := by
  have h : ∀ t doc v, exFaultCodec.parse t = .ok doc → visit doc = .ok v → exFaultFile.readValue (exFaultDisk t) = .ok v := by
    intro t doc v h1 h2
    exact (C56_content exFaultCodec (exFaultDisk t) (os "/a.toml") rfl v).2 ⟨t, doc, none, rfl, h1, h2⟩
  exact ⟨h "ab" (.map [(.str "a", .str "1"), (.str "b", .str "2")]) _ (by simp [exFaultCodec]) rfl, h "a" (.map [(.str "a", .str "1")]) _ (by simp [exFaultCodec]) rfl⟩

theorem exFault_readable : Readable (os "/a.toml") (exFaultDisk "ab") := by
  intro bs code wr h; cases h

/-- The killed program left the beginning of its text, which reads as a file without `b`. A program that had loaded before brings `b` back by saving … -/
example : ∃ (w' : World) (mem : Bool → Option Value) (o : Origins Bool),
    HappeningRun exFaultCodec (os "/a.toml") exFaultG ((fun _ => none, exFaultDisk "ab"), Origins.start exFaultCodec (os "/a.toml") (exFaultDisk "ab"))
      [.call (.load false), .call (.set false "c" (.string "3")), .call (.load true), .outside, .quit false, .call (.load false), .call (.save true)] ((mem, w'), o) ∧
    ∃ v, exFaultFile.readValue w' = .ok v ∧ view v [.key "b"] = some (.string "2") := by
  have hfirst : ∃ mem o, HappeningRun exFaultCodec (os "/a.toml") exFaultG
      ((fun _ : Bool => none, exFaultDisk "ab"), Origins.start exFaultCodec (os "/a.toml") (exFaultDisk "ab"))
      [.call (.load false), .call (.set false "c" (.string "3"))] ((mem, exFaultDisk "ab"), o) :=
    ⟨_, _, .cons (.call (.load false exFault_read.1 rfl)) (.cons (.call (.set false (v := exFaultAB) rfl (by simp [UniqueKeys]) rfl)) (.nil _))⟩
  have hrest : ∀ (mem : Bool → Option Value) o, ∃ mem' w' o', HappeningRun exFaultCodec (os "/a.toml") exFaultG ((mem, exFaultDisk "ab"), o)
      [.call (.load true), .outside, .quit false, .call (.load false), .call (.save true)] ((mem', w'), o') := fun mem o =>
    ⟨_, _, _, .cons (.call (.load true exFault_read.1 rfl)) (.cons (.outside (C104_interrupted _ _ _ exFault_killed)) (.cons (.quit false)
      (.cons (.call (.load false exFault_read.2 rfl)) (.cons (.call (.save true (v := exFaultAB) rfl rfl (by simp [exFaultG]))) (.nil _)))))⟩
  obtain ⟨mem₁, o₁, h1⟩ := hfirst
  obtain ⟨mem, w', o, h2⟩ := hrest mem₁ o₁
  obtain ⟨v₁, v, e1, e2, hv⟩ := C104_repair exFault_keeps exFault_noNulls _ _ _ exFault_readable _ [.outside, .quit false, .call (.load false)] true (by simp)
    _ _ _ _ h1 h2
  rw [show (Layer.file (textHandler exFaultCodec) (os "/a.toml")).readValue (exFaultDisk "ab") = _ from exFault_read.1] at e1
  cases e1
  exact ⟨w', mem, o, happeningRun_trans h1 h2, v, e2, exEd_string (hv.other "b" rfl [])⟩

/-- … and one that starts anew and saves makes the loss of `b` permanent, without any error. -/
example : ∃ (w' : World) (mem : Bool → Option Value) (o : Origins Bool),
    HappeningRun exFaultCodec (os "/a.toml") exFaultG ((fun _ => none, exFaultDisk "ab"), Origins.start exFaultCodec (os "/a.toml") (exFaultDisk "ab"))
      [.call (.load false), .call (.set false "c" (.string "3")), .outside, .quit false, .call (.load false), .call (.save false)] ((mem, w'), o) ∧
    ∃ v, exFaultFile.readValue w' = .ok v ∧ view v [.key "b"] = none := by
  have hrun : ∃ mem w' o, HappeningRun exFaultCodec (os "/a.toml") exFaultG
      ((fun _ : Bool => none, exFaultDisk "ab"), Origins.start exFaultCodec (os "/a.toml") (exFaultDisk "ab"))
      [.call (.load false), .call (.set false "c" (.string "3")), .outside, .quit false, .call (.load false), .call (.save false)] ((mem, w'), o) ∧
      o.file = some ⟨exFaultA, []⟩ :=
    ⟨_, _, _, .cons (.call (.load false exFault_read.1 rfl)) (.cons (.call (.set false (v := exFaultAB) rfl (by simp [UniqueKeys]) rfl))
      (.cons (.outside (C104_interrupted _ _ _ exFault_killed)) (.cons (.quit false) (.cons (.call (.load false exFault_read.2 rfl))
        (.cons (.call (.save false (v := exFaultA) rfl rfl (by simp [exFaultG]))) (.nil _)))))), by
      simp only [Origins.after, Function.update_self, found]
      rw [show (Layer.file (textHandler exFaultCodec) (os "/a.toml")).readValue (exFaultDisk "a") = _ from exFault_read.2]
      rfl⟩
  obtain ⟨mem, w', o, h1, h2⟩ := hrun
  obtain ⟨v, e, hv⟩ := (C104_history exFault_keeps exFault_noNulls _ _ exFault_readable _ _ _ h1).1 _ h2
  refine ⟨w', mem, o, h1, v, e, ?_⟩
  rcases hv.other "b" rfl [] with ⟨-, h⟩ | ⟨x, y, h, -⟩
  · exact h
  · cases h

end Verif.Props
