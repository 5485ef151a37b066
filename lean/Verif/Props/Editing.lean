import Verif.Props.TomlSaving
import Verif.Spec.Editing
/-!
# C103: several programs that edit one settings file
-/
namespace Verif.Props
open Verif Verif.Spec

variable {ι : Type} [DecidableEq ι] {cd : Codec} {path : OsStr} {omits : Bool} {G : Value → Prop}

theorem shownAlike_refl (h : Option Head) : ShownAlike h h := by
  cases h with
  | none => exact Or.inl ⟨rfl, rfl⟩
  | some a => exact Or.inr ⟨a, a, rfl, rfl, Or.inl rfl⟩

theorem shownAlike_symm {h h' : Option Head} (a : ShownAlike h h') : ShownAlike h' h := by
  rcases a with ⟨a, b⟩ | ⟨x, y, a, b, c⟩
  · exact Or.inl ⟨b, a⟩
  · exact Or.inr ⟨y, x, b, a, headAlike_symm c⟩

theorem headAlike_trans {a b c : Head} (h3 : HeadAlike a b) (k3 : HeadAlike b c) : HeadAlike a c := by
  rcases h3 with rfl | ⟨n, h3, h4⟩ <;> rcases k3 with rfl | ⟨m, k3, k4⟩
  · exact Or.inl rfl
  · exact Or.inr ⟨m, k3, k4⟩
  · exact Or.inr ⟨n, h3, h4⟩
  · rw [h4] at k3; cases k3
    exact Or.inr ⟨n, h3, k4⟩

theorem shownAlike_trans {a b c : Option Head} (h : ShownAlike a b) (h' : ShownAlike b c) : ShownAlike a c := by
  rcases h with ⟨h1, h2⟩ | ⟨x, y, h1, h2, h3⟩ <;> rcases h' with ⟨k1, k2⟩ | ⟨x', y', k1, k2, k3⟩
  · exact Or.inl ⟨h1, k2⟩
  · rw [h2] at k1; cases k1
  · rw [h2] at k1; cases k1
  · rw [h2] at k1; cases k1
    exact Or.inr ⟨x, y', h1, k2, headAlike_trans h3 k3⟩

theorem lastSetting_nil (k : String) : lastSetting [] k = none := rfl

theorem lastSetting_append (l l' : List (String × Value)) (k : String) :
    lastSetting (l ++ l') k = (lastSetting l' k).or (lastSetting l k) := by
  unfold lastSetting
  rw [List.reverse_append, List.find?_append]
  cases List.find? (fun e => e.1 == k) l'.reverse <;> rfl

theorem lastSetting_snoc (l : List (String × Value)) (j : String) (x : Value) (k : String) :
    lastSetting (l ++ [(j, x)]) k = if j = k then some x else lastSetting l k := by
  rw [lastSetting_append]
  by_cases h : j = k
  · rw [if_pos h]; simp [lastSetting, h]
  · rw [if_neg h]; simp [lastSetting, h]

theorem expected_cases (omits : Bool) (k : String) (x : Value) (p : Path) : expected omits k x p = view x p ∨
    (omits = true ∧ (∃ q k', Step.key k :: p = q ++ [.key k']) ∧ view x p = some .none ∧ expected omits k x p = none) := by
  unfold expected
  split
  · next k' h1 h2 =>
    obtain ⟨q, hq⟩ := List.getLast?_eq_some_iff.1 h1
    exact Or.inr ⟨rfl, ⟨q, k', hq⟩, h2, rfl⟩
  · exact Or.inl rfl

theorem expected_null {k : String} {x : Value} {p : Path} (h : ∃ q k', Step.key k :: p = q ++ [.key k']) (hx : view x p = some .none) :
    expected true k x p = none := by
  obtain ⟨q, k', hq⟩ := h
  have : (Step.key k :: p).getLast? = some (.key k') := by rw [hq]; simp
  unfold expected
  rw [this, hx]

theorem has_refl {omits : Bool} {v : Value} (h : v.isMap = true) : Has omits v [] v :=
  ⟨h, fun k x hx => by { rw [lastSetting_nil] at hx; cases hx }, fun _ _ _ => shownAlike_refl _⟩

theorem has_inMemory {omits : Bool} {v₀ v : Value} {l : List (String × Value)} (h : Has omits v₀ l v) : HasInMemory omits v₀ l v :=
  ⟨h.map, fun k x hx p => Or.inl (h.set k x hx p), h.other⟩

theorem has_saved {omits : Bool} {v₀ v v' : Value} {l : List (String × Value)} (h : HasInMemory omits v₀ l v)
    (hn : omits = true → ∀ p, ¬ NullEntry v₀ p) (ha : if omits then AlikeOmitting v v' else Alike v v') : Has omits v₀ l v' := by
  cases omits with
  | false =>
    rw [if_neg (by decide)] at ha
    refine ⟨by rw [← alike_isMap ha]; exact h.map, fun k x hx p => ?_, fun k hk p => shownAlike_trans (h.other k hk p) (ha _)⟩
    have e : expected false k x p = view x p := by
      rcases expected_cases false k x p with e | ⟨e, -⟩
      · exact e
      · cases e
    rcases h.set k x hx p with h1 | h1
    · exact shownAlike_trans h1 (ha _)
    · rw [e]; exact shownAlike_trans h1 (ha _)
  | true =>
    rw [if_pos rfl] at ha
    have keep : ∀ p, ¬ NullEntry v p → ShownAlike (view v p) (view v' p) := fun p hp => (ha p).2 hp
    refine ⟨?_, fun k x hx p => ?_, fun k hk p => ?_⟩
    · have h0 : ¬ NullEntry v [] := by
        rintro ⟨⟨q, k, e⟩, -⟩
        simp at e
      have hm := h.map
      rcases keep [] h0 with ⟨h1, -⟩ | ⟨a, b, h1, h2, h3⟩
      · cases h1
      · cases v <;> cases hm
        rw [view_nil] at h1 h2
        cases h1; 
        rcases h3 with rfl | ⟨n, h3, -⟩
        · cases v' <;> simp_all [head, Value.isMap]
        · cases h3
    · by_cases hv : NullEntry v (.key k :: p)
      · rw [(ha _).1 hv]
        have e : view x p = some .none → expected true k x p = none := expected_null hv.1
        have hx' : view x p = some .none := by
          rcases h.set k x hx p with h1 | h1
          · rw [hv.2] at h1
            rcases h1 with ⟨-, h1⟩ | ⟨a, b, h1, h2, h3⟩
            · cases h1
            · cases h2
              rcases expected_cases true k x p with e' | ⟨-, -, e', -⟩
              · rw [← e', h1, headAlike_none (headAlike_symm h3)]
              · exact e'
          · rw [hv.2] at h1
            rcases h1 with ⟨-, h1⟩ | ⟨a, b, h1, h2, h3⟩
            · cases h1
            · cases h2; rw [h1, headAlike_none (headAlike_symm h3)]
        rw [e hx']; exact shownAlike_refl _
      · rcases h.set k x hx p with h1 | h1
        · exact shownAlike_trans h1 (keep _ hv)
        · rcases expected_cases true k x p with e | ⟨-, e1, e2, -⟩
          · rw [e]; exact shownAlike_trans h1 (keep _ hv)
          · exfalso
            rw [e2] at h1
            rcases h1 with ⟨h1, -⟩ | ⟨a, b, h1, h2, h3⟩
            · cases h1
            · cases h1
              exact hv ⟨e1, by rw [h2, headAlike_none h3]⟩
    · refine shownAlike_trans (h.other k hk p) (keep _ ?_)
      rintro ⟨h1, h2⟩
      rcases h.other k hk p with ⟨-, h3⟩ | ⟨a, b, h3, h4, h5⟩
      · rw [h2] at h3; cases h3
      · rw [h2] at h4; cases h4
        exact hn rfl _ ⟨h1, by rw [h3, headAlike_none (headAlike_symm h5)]⟩

theorem has_set {omits : Bool} {v₀ v v' : Value} {l : List (String × Value)} {k : String} {x : Value} (h : HasInMemory omits v₀ l v)
    (hs : v.set k x = (.ok (), v')) : HasInMemory omits v₀ (l ++ [(k, x)]) v' := by
  cases v with
  | map m =>
    cases hs
    refine ⟨rfl, fun j y hy p => ?_, fun j hj p => ?_⟩
    · rw [view_key_map, hmGet_insert]
      rw [lastSetting_snoc] at hy
      by_cases hk : k = j
      · rw [if_pos hk] at hy ⊢; cases hy; exact Or.inr (shownAlike_refl _)
      · rw [if_neg hk] at hy ⊢; rw [← view_key_map]; exact h.set j y hy p
    · rw [lastSetting_snoc] at hj
      by_cases hk : k = j
      · rw [if_pos hk] at hj; cases hj
      · rw [if_neg hk] at hj
        have e : view (.map (hmInsert m k x)) (.key j :: p) = view (.map m) (.key j :: p) := by
          rw [view_key_map, view_key_map, hmGet_insert, if_neg hk]
        rw [e]; exact h.other j hj p
  | _ => have := h.map; cases this

theorem has_trans {omits : Bool} {v₀ v₁ v : Value} {l l' : List (String × Value)} (h₁ : Has omits v₀ l v₁) (h : Has omits v₀ (l ++ l') v) :
    Has omits v₁ l' v := by
  refine ⟨h.map, fun k x hx p => h.set k x ?_ p, fun k hk p => ?_⟩
  · rw [lastSetting_append, hx]; rfl
  · cases hl : lastSetting l k with
    | some x =>
      exact shownAlike_trans (shownAlike_symm (h₁.set k x hl p)) (h.set k x (by rw [lastSetting_append, hk, hl]; rfl) p)
    | none => exact shownAlike_trans (shownAlike_symm (h₁.other k hl p)) (h.other k (by rw [lastSetting_append, hk, hl]; rfl) p)

theorem file_unique {w : World} {v : Value} (h : (Layer.file (textHandler cd) path).readValue w = .ok v) : UniqueKeys v := by
  simp only [Layer.readValue] at h
  split at h
  · exact uniqueKeys_textHandler h
  · cases h; exact uniqueKeys_map.2 ⟨List.nodup_nil, by simp⟩

theorem file_readable {w : World} {v : Value} (h : (Layer.file (textHandler cd) path).readValue w = .ok v) :
    ∀ bs code wr, w.disk (w.locate path) ≠ .file bs (some code) wr := by
  intro bs code wr hd
  have he : w.pathExists path = true := by rw [World.pathExists, hd]
  obtain ⟨text, doc, wr', h1, -⟩ := (C56_content cd w path he v).1 h
  rw [hd] at h1; cases h1

/-- What a run keeps: the file and every program's memory have exactly the settings of the log. -/
structure EditInv (omits : Bool) (v₀ : Value) (w₀ : World) (cd : Codec) (path : OsStr) (s : (ι → Option Value) × World) (L : Settings ι) : Prop where
  frame : s.2 = { w₀ with disk := s.2.disk } ∧ ∀ t, t ≠ w₀.locate path → s.2.disk t = w₀.disk t
  file : ∃ v, (Layer.file (textHandler cd) path).readValue s.2 = .ok v ∧ Has omits v₀ L.file v
  mem : ∀ i, (s.1 i = none ∧ L.mem i = none) ∨ ∃ m l, s.1 i = some m ∧ L.mem i = some l ∧ UniqueKeys m ∧ HasInMemory omits v₀ l m

theorem editInv_step {v₀ : Value} {w₀ : World} {s s' : (ι → Option Value) × World} {a : Edit ι} {L : Settings ι}
    (hk : Keeps omits cd G) (hn : omits = true → ∀ p, ¬ NullEntry v₀ p) (h : EditInv omits v₀ w₀ cd path s L) (hs : EditStep cd path G s a s') : EditInv omits v₀ w₀ cd path s' (L.after a) := by
  cases hs with
  | @load mem w v i h1 h2 =>
    obtain ⟨v', e, hv⟩ := h.file
    dsimp only at e
    rw [h1] at e; cases e
    refine ⟨h.frame, ⟨v, h1, hv⟩, fun j => ?_⟩
    by_cases hj : j = i
    · subst hj
      exact Or.inr ⟨v, L.file, by simp, by simp [Settings.after], file_unique h1, has_inMemory hv⟩
    · have := h.mem j
      simpa [Settings.after, Function.update_of_ne hj] using this
  | @set mem w v v' i k x h1 hu h2 =>
    refine ⟨h.frame, h.file, fun j => ?_⟩
    by_cases hj : j = i
    · subst hj
      rcases h.mem j with ⟨e, -⟩ | ⟨m, l, e1, e2, e3, e4⟩
      · dsimp only at e; rw [h1] at e; cases e
      · dsimp only at e1; rw [h1] at e1; cases e1
        refine Or.inr ⟨v', l ++ [(k, x)], by simp, by simp [Settings.after, e2], ?_, has_set e4 h2⟩
        have := (C22_unique_keys v x e3 hu k 0).2.2.2.2.2.2.1
        rw [h2] at this; exact this
    · have := h.mem j
      simpa [Settings.after, Function.update_of_ne hj] using this
  | @save mem w w' v i h1 h2 h3 =>
    obtain ⟨v', e, -⟩ := h.file
    dsimp only at e
    rcases h.mem i with ⟨e', -⟩ | ⟨m, l, e1, e2, e3, e4⟩
    · dsimp only at e'; rw [h1] at e'; cases e'
    dsimp only at e1; rw [h1] at e1; cases e1
    have hp : ∃ text, cd.print v.toData = .ok text := by
      rcases (C57_write cd w path v _ _ h2).2 with ⟨m, -, e, -⟩ | ⟨t, e, -, -, e2, -⟩ | ⟨t, n, code, r, -, -, -, e2, -⟩ | ⟨t, r, e, -⟩
      · cases e
      · cases e2
      · cases e2
      · exact ⟨t, e⟩
    obtain ⟨text, hp⟩ := hp
    obtain ⟨doc, t, hq, hd, hut, hom⟩ := hk v text h3 e3 hp
    obtain ⟨v2, hv2, ha, -⟩ := C66_reads t hut doc hd
    have r2 := C57_read_back cd w w' path v v2 text doc h2 (file_readable e) hp hq hv2
    have ha' : if omits then AlikeOmitting v v2 else Alike v v2 := by
      cases omits with
      | false => rw [if_neg (by decide)] at hom ⊢; rw [← hom]; exact ha
      | true => rw [if_pos rfl] at hom ⊢; exact alikeOmitting_of hom ha
    obtain ⟨⟨f1, f2⟩, -⟩ := C57_write cd w path v _ _ h2
    have hf : w = { w₀ with disk := w.disk } := h.frame.1
    have hl : w.locate = w₀.locate := by rw [hf]
    refine ⟨⟨?_, fun t ht => ?_⟩, ⟨v2, r2, ?_⟩, h.mem⟩
    · show w' = { w₀ with disk := w'.disk }
      rw [f1, hf]
    · rw [← hl] at ht
      exact (f2 t ht).trans (h.frame.2 t (by rw [← hl]; exact ht))
    · simp only [Settings.after, e2, Option.getD_some]
      exact has_saved e4 hn ha'

theorem editInv_run {v₀ : Value} {w₀ : World} {s s' : (ι → Option Value) × World} {acts : List (Edit ι)}
    (hk : Keeps omits cd G) (hn : omits = true → ∀ p, ¬ NullEntry v₀ p) (hr : EditRun cd path G s acts s') :
    ∀ {L : Settings ι}, EditInv omits v₀ w₀ cd path s L → EditInv omits v₀ w₀ cd path s' (acts.foldl Settings.after L) := by
  induction hr with
  | nil s => exact fun h => h
  | cons hs _ ih => exact fun h => ih (editInv_step hk hn h hs)

theorem editInv_start {v₀ : Value} {w₀ : World} (h₀ : (Layer.file (textHandler cd) path).readValue w₀ = .ok v₀) (hm : v₀.isMap = true) :
    EditInv omits v₀ w₀ cd path ((fun _ => none : ι → Option Value), w₀) Settings.start :=
  ⟨⟨rfl, fun _ _ => rfl⟩, ⟨v₀, h₀, has_refl hm⟩, fun _ => Or.inl ⟨rfl, rfl⟩⟩

/-- **C103.** Whatever the programs do and in whatever order: the file can be read, and it is what it was at the beginning with exactly the settings made that
are in the file according to the log; what each program holds is the same with the settings in its memory. Nothing else on the disk changes. -/
theorem C103_history (v₀ : Value) (w₀ w : World) (h₀ : (Layer.file (textHandler cd) path).readValue w₀ = .ok v₀) (hm : v₀.isMap = true)
    (hk : Keeps omits cd G) (hn : omits = true → ∀ p, ¬ NullEntry v₀ p)
    (acts : List (Edit ι)) (mem : ι → Option Value) (hr : EditRun cd path G (fun _ => none, w₀) acts (mem, w)) :
    (∃ v, (Layer.file (textHandler cd) path).readValue w = .ok v ∧ Has omits v₀ (acts.foldl Settings.after Settings.start).file v) ∧
    (∀ i m, mem i = some m → ∃ l, (acts.foldl Settings.after Settings.start).mem i = some l ∧ HasInMemory omits v₀ l m) ∧
    w = { w₀ with disk := w.disk } ∧ (∀ s, s ≠ w₀.locate path → w.disk s = w₀.disk s) := by
  have h := editInv_run hk hn hr (editInv_start h₀ hm)
  refine ⟨h.file, fun i m hi => ?_, h.frame⟩
  rcases h.mem i with ⟨e, -⟩ | ⟨m', l, e1, e2, -, e4⟩
  · dsimp only at e; rw [hi] at e; cases e
  · dsimp only at e1; rw [hi] at e1; cases e1
    exact ⟨l, e2, e4⟩

theorem run_append {s s' : (ι → Option Value) × World} {a b : List (Edit ι)} (h : EditRun cd path G s (a ++ b) s') :
    ∃ t, EditRun cd path G s a t ∧ EditRun cd path G t b s' := by
  induction a generalizing s with
  | nil => exact ⟨s, .nil s, h⟩
  | cons x a ih =>
    cases h with
    | cons h1 h2 =>
      obtain ⟨t, h3, h4⟩ := ih h2
      exact ⟨t, .cons h1 h3, h4⟩

theorem settings_since (i : ι) (acts : List (Edit ι)) : ∀ (L : Settings ι) (l : List (String × Value)), L.mem i = some l →
    (∀ a ∈ acts, a ≠ .load i) → (acts.foldl Settings.after L).mem i = some (l ++ madeBy i acts) := by
  induction acts with
  | nil => intro L l h _; simpa [madeBy] using h
  | cons a acts ih =>
    intro L l h hn
    have hn' : ∀ a ∈ acts, a ≠ .load i := fun a ha => hn a (List.mem_cons_of_mem _ ha)
    rw [List.foldl_cons]
    cases a with
    | load j =>
      have hj : i ≠ j := by rintro rfl; exact hn _ (List.mem_cons_self ..) rfl
      rw [ih _ l (by simpa [Settings.after, Function.update_of_ne hj] using h) hn']
      rfl
    | set j k x =>
      by_cases hj : j = i
      · subst hj
        rw [ih _ (l ++ [(k, x)]) (by simp [Settings.after, h]) hn']
        simp [madeBy]
      · rw [ih _ l (by simpa [Settings.after, Function.update_of_ne (Ne.symm hj)] using h) hn']
        simp [madeBy, hj]
    | save j =>
      rw [ih _ l (by simpa [Settings.after] using h) hn']
      rfl

/-- **C103.** When a program saves, the file is afterwards what it was when this program last loaded it, with the program's own settings since then:
under every key it did not set since then, the file is back to what it had at that moment, whatever others have saved in between. -/
theorem C103_last_saver (v₀ : Value) (w₀ w₁ w : World) (h₀ : (Layer.file (textHandler cd) path).readValue w₀ = .ok v₀) (hm : v₀.isMap = true)
    (hk : Keeps omits cd G) (hn : omits = true → ∀ p, ¬ NullEntry v₀ p)
    (before between : List (Edit ι)) (i : ι) (hi : ∀ a ∈ between, a ≠ .load i) (mem₁ mem : ι → Option Value)
    (hr₁ : EditRun cd path G (fun _ => none, w₀) before (mem₁, w₁))
    (hr : EditRun cd path G (mem₁, w₁) (.load i :: between ++ [.save i]) (mem, w)) :
    ∃ v₁ v, (Layer.file (textHandler cd) path).readValue w₁ = .ok v₁ ∧ (Layer.file (textHandler cd) path).readValue w = .ok v ∧
      (∀ k x, lastSetting (madeBy i between) k = some x → ∀ p, ShownAlike (expected omits k x p) (view v (.key k :: p))) ∧
      (∀ k, (∀ x, Edit.set i k x ∉ between) → ∀ p, AlikeAt v₁ v (.key k :: p)) := by
  have h1 := editInv_run hk hn hr₁ (editInv_start h₀ hm)
  have h2 := editInv_run hk hn hr h1
  obtain ⟨v₁, e1, a1⟩ := h1.file
  obtain ⟨v, e2, a2⟩ := h2.file
  refine ⟨v₁, v, e1, e2, ?_⟩
  rw [List.foldl_append, List.foldl_cons] at a2
  have hmem := settings_since i between (Settings.after (before.foldl Settings.after Settings.start) (.load i))
    (before.foldl Settings.after Settings.start).file (by simp [Settings.after]) hi
  simp only [List.foldl_cons, List.foldl_nil] at a2
  rw [show ∀ L : Settings ι, (L.after (.save i)).file = (L.mem i).getD L.file from fun _ => rfl, hmem, Option.getD_some] at a2
  have a3 := has_trans a1 a2
  refine ⟨a3.set, fun k hset p => a3.other k ?_ p⟩
  cases hl : lastSetting (madeBy i between) k with
  | none => rfl
  | some x =>
    exfalso
    unfold lastSetting at hl
    rw [Option.map_eq_some_iff] at hl
    obtain ⟨e, he, rfl⟩ := hl
    have hmem' := List.mem_reverse.1 (List.mem_of_find?_eq_some he)
    have hk' := List.find?_some he
    obtain ⟨a, ha, hae⟩ := List.mem_filterMap.1 hmem'
    cases a with
    | load j => cases hae
    | save j => cases hae
    | set j k' x' =>
      by_cases hj : j = i
      · simp only [hj, if_true, Option.some.injEq] at hae
        subst hae
        simp only [beq_iff_eq] at hk'
        subst hj; subst hk'
        exact hset _ ha
      · simp [hj] at hae

/-- **C103.** If the programs take turns, each loading and saving without another's save in between, no setting is lost: the file has all of them, the later
one where two set the same key. -/
theorem C103_taking_turns (v₀ : Value) (w₀ w : World) (h₀ : (Layer.file (textHandler cd) path).readValue w₀ = .ok v₀) (hm : v₀.isMap = true)
    (hk : Keeps omits cd G) (hn : omits = true → ∀ p, ¬ NullEntry v₀ p)
    (turns : List (ι × List (String × Value))) (mem : ι → Option Value)
    (hr : EditRun cd path G (fun _ => none, w₀) (turns.flatMap fun t => session t.1 t.2) (mem, w)) :
    ∃ v, (Layer.file (textHandler cd) path).readValue w = .ok v ∧ Has omits v₀ (turns.flatMap Prod.snd) v := by
  obtain ⟨⟨v, h1, h2⟩, -⟩ := C103_history v₀ w₀ w h₀ hm hk hn _ mem hr
  refine ⟨v, h1, ?_⟩
  have key : ∀ (turns : List (ι × List (String × Value))) (L : Settings ι),
      ((turns.flatMap fun t => session t.1 t.2).foldl Settings.after L).file = L.file ++ turns.flatMap Prod.snd := by
    intro turns
    induction turns with
    | nil => intro L; simp
    | cons t turns ih =>
      intro L
      rw [List.flatMap_cons, List.foldl_append, ih, List.flatMap_cons, ← List.append_assoc]
      congr 1
      unfold session
      rw [List.foldl_append, List.foldl_cons]
      have hmem := settings_since t.1 (t.2.map fun e => Edit.set t.1 e.1 e.2) (L.after (.load t.1)) L.file (by simp [Settings.after]) (by
        intro a ha
        obtain ⟨e, -, rfl⟩ := List.mem_map.1 ha
        exact fun h => by cases h)
      simp only [List.foldl_cons, List.foldl_nil]
      rw [show ∀ L : Settings ι, (L.after (.save t.1)).file = (L.mem t.1).getD L.file from fun _ => rfl, hmem, Option.getD_some]
      congr 1
      unfold madeBy
      rw [List.filterMap_map]
      simp
  rw [key] at h2
  exact h2

/-- **C103.** The premise on the format: TOML keeps everything but `None` entries. -/
theorem C103_toml {limit : Nat} (ht : TomlLike limit cd) : Keeps true cd (DepthBelow · limit) := by
  intro v text hg hu hp
  obtain ⟨doc, s, h1, h2, h3, h4⟩ := ht.parses v text hu hg hp
  exact ⟨doc, s, h1, h2, h4, by rw [if_pos rfl]; exact h3⟩

/-- **C103.** What a configuration with the file as one of its layers builds after such a run: where none of the layers above it speaks, the last setting that is
in the file, and under keys that were not set what the file had at the beginning. -/
theorem C103_built (v₀ : Value) (w₀ w : World) (h₀ : (Layer.file (textHandler cd) path).readValue w₀ = .ok v₀) (hm : v₀.isMap = true)
    (hk : Keeps omits cd G) (hn : omits = true → ∀ p, ¬ NullEntry v₀ p)
    (acts : List (Edit ι)) (mem : ι → Option Value) (hr : EditRun cd path G (fun _ => none, w₀) acts (mem, w))
    (b : Build) (fm : Formats) (calls : List RegCall) (hb : ∀ c ∈ calls, c.BuiltIn) (hu : ∀ c ∈ calls, ∀ n x, c = .memory n x → UniqueKeys x)
    (lower upper : List (String × Layer)) (name : String)
    (hl : firsts (offers b fm calls) = lower ++ (name, .file (textHandler cd) path) :: upper)
    (skip : Bool) (built : Value) (hbuild : (register b fm calls).buildValue w skip = .ok built) (k : String) (p : Path)
    (hup : ∀ e ∈ upper, ¬ Speaks w e.2 (.key k :: p)) :
    (∀ x h, lastSetting (acts.foldl Settings.after Settings.start).file k = some x → expected omits k x p = some h →
      ∃ h', view built (.key k :: p) = some h' ∧ HeadAlike h h') ∧
    (∀ h, lastSetting (acts.foldl Settings.after Settings.start).file k = none → view v₀ (.key k :: p) = some h →
      ∃ h', view built (.key k :: p) = some h' ∧ HeadAlike h h') := by
  obtain ⟨⟨v, h1, h2⟩, -⟩ := C103_history v₀ w₀ w h₀ hm hk hn acts mem hr
  have hp : ∀ e ∈ firsts (offers b fm calls), Proper e.2 := by
    intro e he
    obtain ⟨c, hc, ho⟩ := List.mem_filterMap.1 (mem_firsts he)
    exact C08_builtin_proper b fm c e (hb c hc) (hu c hc) ho
  have key : ∀ {h : Head} {o : Option Head}, o = some h → ShownAlike o (view v (.key k :: p)) →
      ∃ h', view built (.key k :: p) = some h' ∧ HeadAlike h h' := by
    rintro h o rfl (⟨e, -⟩ | ⟨a, a', e1, e2, e3⟩)
    · cases e
    · cases e1
      refine ⟨a', ?_, e3⟩
      rw [C07_last_speaker b fm calls w skip built hbuild hp (.key k :: p) lower (name, .file (textHandler cd) path) upper v hl h1 h2.map
        (fun hs => by rw [silent_none hs] at e2; cases e2) hup, e2]
  exact ⟨fun x h hx he => key he (h2.set k x hx p), fun h hk' he => key he (h2.other k hk' p)⟩

/-! ### Concrete cases

The file has a proxy and a text under `a`. One program changes `a`, the other sets the proxy to `None`. -/

def exEdA : Value := .map [("proxy", .string "q"), ("a", .string "3")]
def exEdB : Value := .map [("proxy", .none), ("a", .string "2")]
def exEdB' : Value := .map [("proxy", .none), ("a", .string "3")]

theorem exEd_flat (m : Entries) (h : ∀ e ∈ m, e.2 = .none ∨ ∃ s, e.2 = .string s) : TomlHolds (.map m) ∧ DepthBelow (.map m) 80 := by
  refine ⟨.map fun e he hn => ?_, depth_mono (depth_node (k := 1) fun s x hx => ?_) (by decide)⟩
  · rcases h e he with h | ⟨s, h⟩
    · exact absurd h hn
    · rw [h]; exact .string s
  · cases s with
    | idx i => cases hx
    | key j =>
      rw [child_key_map] at hx
      have := h _ (hmGet_mem hx)
      dsimp only at this
      rcases this with rfl | ⟨t, rfl⟩ <;> exact depth_leaf (by rintro (_ | _) <;> rfl)

theorem exEd_start : ∃ w, exTSFile.readValue w = .ok exTSOld ∧ ExTSReady w ∧ ∀ p, ¬ NullEntry exTSOld p := by
  obtain ⟨w1, hr1, hw1, hs1⟩ := exTS_old
  obtain ⟨r, e, -, hn⟩ := hs1.after
  rw [show exTSFile.readValue w1 = _ from e] at hr1
  cases hr1
  exact ⟨w1, e, hw1, hn⟩

theorem exEd_string {s : String} {h : Option Head} (e : ShownAlike (some (.string s)) h) : h = some (.string s) := by
  rcases e with ⟨e, -⟩ | ⟨a, a', e, rfl, e'⟩
  · cases e
  · cases e
    rcases e' with rfl | ⟨n, e', -⟩
    · rfl
    · cases e'

/-- Both load, then both change and save: the setting of the first is lost, and nothing is left of the proxy. -/
example : ∃ (w w' : World) (mem : Bool → Option Value), exTSFile.readValue w = .ok exTSOld ∧
    EditRun exToml (os "/c.toml") (DepthBelow · 80) ((fun _ => none), w)
      [.load true, .load false, .set true "a" (.string "3"), .save true, .set false "proxy" .none, .save false] (mem, w') ∧
    ∃ v, exTSFile.readValue w' = .ok v ∧ view v [.key "a"] = some (.string "2") ∧ view v [.key "proxy"] = none := by
  obtain ⟨w1, hr1, hw1, hn⟩ := exEd_start
  obtain ⟨hA, dA⟩ := exEd_flat [("proxy", .string "q"), ("a", .string "3")] (by simp)
  obtain ⟨hB, dB⟩ := exEd_flat [("proxy", .none), ("a", .string "2")] (by simp)
  obtain ⟨w2, hok2, hr2, hw2⟩ := exTS_step hw1 (v := exEdA) (r := exEdA) rfl hA (by
    rw [show prune exEdA = exEdA from rfl]
    simp only [exEdA, docOf, List.attach, List.attachWith, List.pmap, List.map]; rfl)
  obtain ⟨w3, hok3, hr3, hw3⟩ := exTS_step hw2 (v := exEdB) (r := .map [("a", .string "2")]) rfl hB (by
    rw [show prune exEdB = .map [("a", .string "2")] from rfl]
    simp only [docOf, List.attach, List.attachWith, List.pmap, List.map]; rfl)
  have hrest : EditRun exToml (os "/c.toml") (DepthBelow · 80) (Function.update (fun _ => none : Bool → Option Value) true (some exTSOld), w1)
      [.load false, .set true "a" (.string "3"), .save true, .set false "proxy" .none, .save false]
      (Function.update (Function.update (Function.update (Function.update (fun _ => none) true (some exTSOld)) false (some exTSOld)) true (some exEdA))
        false (some exEdB), w3) :=
    .cons (.load false hr1 rfl) (.cons (.set true (v := exTSOld) rfl (by simp [UniqueKeys]) rfl) (.cons (.save true (v := exEdA) rfl hok2 dA)
      (.cons (.set false (v := exTSOld) rfl (by simp [UniqueKeys]) rfl) (.cons (.save false (v := exEdB) rfl hok3 dB) (.nil _)))))
  have h0 : EditRun exToml (os "/c.toml") (DepthBelow · 80) ((fun _ => none : Bool → Option Value), w1) [.load true]
      (Function.update (fun _ => none) true (some exTSOld), w1) := .cons (.load true hr1 rfl) (.nil _)
  refine ⟨w1, w3, _, hr1, .cons (.load true hr1 rfl) hrest, ?_⟩
  obtain ⟨v₁, v, h1, h2, h3, h4⟩ := C103_last_saver exTSOld w1 w1 w3 hr1 rfl (C103_toml (exToml_like 80)) (fun _ => hn) [.load true]
    [.set true "a" (.string "3"), .save true, .set false "proxy" .none] false (by simp) _ _ h0 hrest
  rw [show (Layer.file (textHandler exToml) (os "/c.toml")).readValue w1 = _ from hr1] at h1
  cases h1
  refine ⟨v, h2, ?_, ?_⟩
  · exact exEd_string (h4 "a" (by simp) [])
  · rcases h3 "proxy" .none rfl [] with ⟨-, e⟩ | ⟨a, a', e, -⟩
    · exact e
    · cases e

/-- They take turns: both settings are in the file, and a configuration over it shows them. -/
example : ∃ (w w' : World) (mem : Bool → Option Value), exTSFile.readValue w = .ok exTSOld ∧
    EditRun exToml (os "/c.toml") (DepthBelow · 80) ((fun _ => none), w)
      (session true [("a", .string "3")] ++ session false [("proxy", .none)]) (mem, w') ∧
    (∃ v, exTSFile.readValue w' = .ok v ∧ view v [.key "a"] = some (.string "3") ∧ view v [.key "proxy"] = none) ∧
    ∃ built, (register exB1 ⟨exToml, exToml⟩ exTomlCalls).buildValue w' false = .ok built ∧ view built [.key "a"] = some (.string "3") := by
  obtain ⟨w1, hr1, hw1, hn⟩ := exEd_start
  obtain ⟨hA, dA⟩ := exEd_flat [("proxy", .string "q"), ("a", .string "3")] (by simp)
  obtain ⟨hB, dB⟩ := exEd_flat [("proxy", .none), ("a", .string "3")] (by simp)
  obtain ⟨w2, hok2, hr2, hw2⟩ := exTS_step hw1 (v := exEdA) (r := exEdA) rfl hA (by
    rw [show prune exEdA = exEdA from rfl]
    simp only [exEdA, docOf, List.attach, List.attachWith, List.pmap, List.map]; rfl)
  obtain ⟨w3, hok3, hr3, hw3⟩ := exTS_step hw2 (v := exEdB') (r := .map [("a", .string "3")]) rfl hB (by
    rw [show prune exEdB' = .map [("a", .string "3")] from rfl]
    simp only [docOf, List.attach, List.attachWith, List.pmap, List.map]; rfl)
  have hrun : EditRun exToml (os "/c.toml") (DepthBelow · 80) ((fun _ => none : Bool → Option Value), w1)
      (session true [("a", .string "3")] ++ session false [("proxy", .none)])
      (Function.update (Function.update (Function.update (Function.update (fun _ => none) true (some exTSOld)) true (some exEdA)) false (some exEdA))
        false (some exEdB'), w3) :=
    .cons (.load true hr1 rfl) (.cons (.set true (v := exTSOld) rfl (by simp [UniqueKeys]) rfl) (.cons (.save true (v := exEdA) rfl hok2 dA)
      (.cons (.load false hr2 rfl) (.cons (.set false (v := exEdA) rfl (by simp [UniqueKeys]) rfl) (.cons (.save false (v := exEdB') rfl hok3 dB) (.nil _))))))
  refine ⟨w1, w3, _, hr1, hrun, ?_, ?_⟩
  · obtain ⟨v, h1, h2⟩ := C103_taking_turns exTSOld w1 w3 hr1 rfl (C103_toml (exToml_like 80)) (fun _ => hn)
      [(true, [("a", .string "3")]), (false, [("proxy", .none)])] _ hrun
    refine ⟨v, h1, exEd_string (h2.set "a" (.string "3") rfl []), ?_⟩
    rcases h2.set "proxy" .none rfl [] with ⟨-, e⟩ | ⟨a, a', e, -⟩
    · exact e
    · cases e
  · have hb : (register exB1 ⟨exToml, exToml⟩ exTomlCalls).buildValue w3 false = .ok (.map [("proxy", .string "p"), ("a", .string "3")]) := by
      rw [buildValue_is (is_register _ _ _)]
      show buildList w3 false Value.newMap [("default", .memory (.map [("proxy", .string "p")])), ("file", exTSFile)] = _
      simp only [buildList, hr3]
      rfl
    refine ⟨_, hb, ?_⟩
    obtain ⟨a, e1, e2⟩ := (C103_built exTSOld w1 w3 hr1 rfl (C103_toml (exToml_like 80)) (fun _ => hn) _ _ hrun exB1 ⟨exToml, exToml⟩ exTomlCalls
      (by simp [exTomlCalls, RegCall.BuiltIn])
      (by
        intro c hc n x hx
        simp only [exTomlCalls, List.mem_cons, List.not_mem_nil, or_false] at hc
        rcases hc with rfl | rfl <;> cases hx
        simp [UniqueKeys, UniqueKeysMap, UniqueKeysEntry])
      [("default", .memory (.map [("proxy", .string "p")]))] [] "file" rfl false _ hb "a" [] (by simp)).1 (.string "3") (.string "3") rfl rfl
    rw [e1]
    rcases e2 with rfl | ⟨n, e2, -⟩
    · rfl
    · cases e2

end Verif.Props
