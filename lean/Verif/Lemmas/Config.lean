import Verif.Spec.Config
import Verif.Lemmas.Merge2
import Verif.Lemmas.Doc
/-! # Lemmas about the configuration builder -/
namespace Verif
open Spec

/-- Registering into a list. -/
def pushTo {α : Type} (ls : List (String × α)) (e : String × α) : List (String × α) :=
  if e.1 ∈ ls.map Prod.fst then ls else ls ++ [e]

theorem hmGet_isSome_iff {α : Type} (m : List (String × α)) (k : String) :
    (hmGet m k).isSome = true ↔ k ∈ m.map Prod.fst := by
  induction m with
  | nil => simp [hmGet]
  | cons e m ih =>
    obtain ⟨k', v⟩ := e
    simp only [hmGet, List.map_cons, List.mem_cons]
    split
    · rename_i h; simp [h]
    · rename_i h; rw [ih]; constructor
      · exact Or.inr
      · rintro (h' | h')
        · exact absurd h'.symm h
        · exact h'

theorem hmInsert_new {α : Type} (m : List (String × α)) (k : String) (v : α) (h : k ∉ m.map Prod.fst) :
    hmInsert m k v = m ++ [(k, v)] := by
  induction m with
  | nil => rfl
  | cons e m ih =>
    obtain ⟨k', v'⟩ := e
    simp only [List.map_cons, List.mem_cons, not_or] at h
    simp [hmInsert, ih h.2, Ne.symm h.1]

/-- The configuration is exactly this list of named layers. -/
def Is (c : Config) (ls : List (String × Layer)) : Prop :=
  c.layers = ls ∧ c.names = ls.map Prod.fst ∧ (ls.map Prod.fst).Nodup

theorem is_new : Is Config.new [] := ⟨rfl, rfl, List.nodup_nil⟩

theorem is_push {c : Config} {ls : List (String × Layer)} (h : Is c ls) (name : String) (l : Layer) :
    Is (c.pushLayer name l) (pushTo ls (name, l)) := by
  obtain ⟨h1, h2, h3⟩ := h
  unfold Config.pushLayer pushTo
  by_cases hm : name ∈ ls.map Prod.fst
  · have : (hmGet c.layers name).isSome = true := by rw [hmGet_isSome_iff, h1]; exact hm
    rw [if_pos this, if_pos hm]
    exact ⟨h1, h2, h3⟩
  · have : ¬ (hmGet c.layers name).isSome = true := by rw [hmGet_isSome_iff, h1]; exact hm
    rw [if_neg this, if_neg hm]
    refine ⟨by simp only [h1]; exact hmInsert_new ls name l hm, by simp [h2], ?_⟩
    rw [List.map_append, List.nodup_append]
    refine ⟨h3, by simp, ?_⟩
    intro a ha b hb
    simp at hb; subst hb
    exact fun e => hm (e ▸ ha)

theorem osChars_map (l : List Char) : osChars (l.map OsChar.chr) = some l := by
  induction l with
  | nil => rfl
  | cons c l ih => simp [osChars, OsChar.char?, ih]

theorem osToStr_os (s : String) : osToStr (os s) = some s := by
  simp [osToStr, os, osChars_map]

theorem osChars_eq {s : OsStr} {l : List Char} (h : osChars s = some l) : s = l.map OsChar.chr := by
  induction s generalizing l with
  | nil => simp [osChars] at h; subst h; rfl
  | cons x s ih =>
    rw [osChars] at h
    cases x with
    | raw b => simp [OsChar.char?] at h
    | chr c =>
      simp only [OsChar.char?, Option.bind_some, Option.map_eq_some_iff] at h
      obtain ⟨l', h1, rfl⟩ := h
      simp [ih h1]

theorem osToStr_eq {s : OsStr} {t : String} : osToStr s = some t ↔ s = os t := by
  constructor
  · intro h
    unfold osToStr at h
    rw [Option.map_eq_some_iff] at h
    obtain ⟨l, h1, rfl⟩ := h
    rw [osChars_eq h1]; simp [os]
  · rintro rfl; exact osToStr_os t

theorem matchPath_toml (p : OsStr) : FileExtension.toml.matchPath p = true ↔ pathExtension p = some (os "toml") := by
  unfold FileExtension.matchPath
  simp only [beq_iff_eq]
  cases h : pathExtension p with
  | none => simp
  | some e => simp [osToStr_eq]

theorem matchPath_json (p : OsStr) : FileExtension.json.matchPath p = true ↔ pathExtension p = some (os "json") := by
  unfold FileExtension.matchPath
  simp only [beq_iff_eq]
  cases h : pathExtension p with
  | none => simp
  | some e => simp [osToStr_eq]

theorem addFileLayer_eq (b : Build) (fm : Formats) (c : Config) (name : String) (path : OsStr) :
    c.addFileLayer b fm name path =
      match (RegCall.file name path).offer b fm with
      | some (n, l) => (.ok (), c.pushLayer n l)
      | none => (.error (.configLayerError (.unsupportedExtension (((pathExtension path).bind osToStr).getD ""))), c) := by
  unfold Config.addFileLayer RegCall.offer
  by_cases h1 : b.toml = true ∧ pathExtension path = some (os "toml")
  · have : (b.toml && FileExtension.toml.matchPath path) = true := by
      rw [Bool.and_eq_true, matchPath_toml]; exact h1
    rw [if_pos this]; simp only [if_pos h1]; rfl
  · have : ¬ (b.toml && FileExtension.toml.matchPath path) = true := by
      rw [Bool.and_eq_true, matchPath_toml]; exact h1
    rw [if_neg this]
    by_cases h2 : b.json = true ∧ pathExtension path = some (os "json")
    · have : (b.json && FileExtension.json.matchPath path) = true := by
        rw [Bool.and_eq_true, matchPath_json]; exact h2
      rw [if_pos this]; simp only [if_neg h1, if_pos h2]; rfl
    · have : ¬ (b.json && FileExtension.json.matchPath path) = true := by
        rw [Bool.and_eq_true, matchPath_json]; exact h2
      rw [if_neg this]; simp only [if_neg h1, if_neg h2]

theorem is_apply {b : Build} {fm : Formats} {c : Config} {ls : List (String × Layer)} (h : Is c ls) (call : RegCall) :
    Is (call.apply b fm c) (match call.offer b fm with | some e => pushTo ls e | none => ls) := by
  cases call with
  | layer name l => exact is_push h name l
  | environment name pre => exact is_push h name _
  | memory name v => exact is_push h name _
  | file name path =>
    rw [RegCall.apply, addFileLayer_eq]
    cases (RegCall.file name path).offer b fm with
    | none => exact h
    | some e => exact is_push h e.1 e.2

theorem is_foldl {b : Build} {fm : Formats} (calls : List RegCall) : ∀ {c : Config} {ls : List (String × Layer)},
    Is c ls → Is (calls.foldl (RegCall.apply b fm) c) ((offers b fm calls).foldl pushTo ls) := by
  induction calls with
  | nil => intro c ls h; exact h
  | cons a calls ih =>
    intro c ls h
    have := is_apply (b := b) (fm := fm) h a
    rw [List.foldl_cons, offers, List.filterMap_cons]
    cases ho : a.offer b fm with
    | none => rw [ho] at this; exact ih this
    | some e => rw [ho] at this; rw [List.foldl_cons]; exact ih this

theorem foldl_pushTo {α : Type} (es : List (String × α)) : ∀ acc : List (String × α),
    es.foldl pushTo acc = acc ++ (firsts es).filter (fun e => e.1 ∉ acc.map Prod.fst) := by
  induction es with
  | nil => intro acc; simp [firsts]
  | cons e es ih =>
    intro acc
    obtain ⟨k, v⟩ := e
    rw [List.foldl_cons, ih, firsts]
    unfold pushTo
    by_cases h : k ∈ acc.map Prod.fst
    · rw [if_pos h, List.filter_cons_of_neg (by simpa using h), List.filter_filter]
      congr 1
      apply List.filter_congr
      intro x _
      by_cases hx : x.1 ∈ acc.map Prod.fst
      · simp [hx]
      · have : x.1 ≠ k := fun e => hx (e ▸ h)
        simp [hx, this]
    · rw [if_neg h, List.filter_cons_of_pos (by simpa using h), List.filter_filter, List.append_assoc]
      congr 1
      rw [List.singleton_append]
      congr 1
      apply List.filter_congr
      intro x _
      simp only [List.map_append, List.map_cons, List.map_nil, List.mem_append, List.mem_singleton, not_or]
      by_cases hx : x.1 ∈ acc.map Prod.fst <;> by_cases hk : x.1 = k <;> simp [hx, hk]

/-- The registered layers are the first offers under each name. -/
theorem is_register (b : Build) (fm : Formats) (calls : List RegCall) :
    Is (register b fm calls) (firsts (offers b fm calls)) := by
  have := is_foldl (b := b) (fm := fm) calls is_new
  rw [foldl_pushTo] at this
  have h2 : (firsts (offers b fm calls)).filter (fun e => e.1 ∉ ([] : List (String × Layer)).map Prod.fst) =
      firsts (offers b fm calls) := by
    rw [List.filter_eq_self]; simp
  rw [h2, List.nil_append] at this
  exact this

theorem find_firsts {α : Type} (es : List (String × α)) (k : String) :
    hmGet (firsts es) k = (es.find? (fun e => e.1 == k)).map Prod.snd := by
  have key : ∀ (l : List (String × α)) (k k' : String), k ≠ k' → hmGet (l.filter fun e => e.1 ≠ k') k = hmGet l k := by
    intro l k k' hne
    induction l with
    | nil => rfl
    | cons e l ih =>
      obtain ⟨a, v⟩ := e
      by_cases h : a = k'
      · rw [List.filter_cons_of_neg (by simpa using h), ih, hmGet, if_neg]
        rintro rfl; exact hne h
      · rw [List.filter_cons_of_pos (by simpa using h), hmGet, hmGet, ih]
  induction es with
  | nil => rfl
  | cons e es ih =>
    obtain ⟨k', v⟩ := e
    rw [firsts, hmGet, List.find?_cons]
    by_cases h : k' = k
    · simp [h]
    · rw [if_neg h, key _ _ _ (Ne.symm h), ih]
      have : (k' == k) = false := by simpa using h
      simp [this]

/-! ### build_value as a loop over the layers -/

/-- The loop of build_value over the layers themselves. -/
def buildList (w : World) (skip : Bool) (value : Value) : List (String × Layer) → Except BakuninError Value
  | [] => .ok value
  | e :: ls =>
    match e.2.readValue w with
    | .error x => if skip then buildList w skip value ls else .error x
    | .ok v => buildList w skip (value.merge v) ls

theorem buildLoop_eq (w : World) (c : Config) (skip : Bool) (ls : List (String × Layer)) :
    ∀ value, (∀ e ∈ ls, hmGet c.layers e.1 = some e.2) →
      Config.buildLoop w c skip value (ls.map Prod.fst) = buildList w skip value ls := by
  induction ls with
  | nil => intro value _; rfl
  | cons e ls ih =>
    intro value h
    rw [List.map_cons, Config.buildLoop, h e (by simp), buildList]
    have ih := fun value => ih value (fun x hx => h x (by simp [hx]))
    simp only []
    cases e.2.readValue w with
    | error x => cases skip <;> simp [ih]
    | ok v => simp [ih]

theorem hmGet_of_mem' {α : Type} {m : List (String × α)} (hn : (m.map Prod.fst).Nodup) {e : String × α}
    (he : e ∈ m) : hmGet m e.1 = some e.2 := by
  induction m with
  | nil => cases he
  | cons a m ih =>
    simp only [List.map_cons, List.nodup_cons] at hn
    rcases List.mem_cons.1 he with rfl | he
    · simp [hmGet]
    · have : a.1 ≠ e.1 := fun h => hn.1 (h ▸ List.mem_map_of_mem he)
      simp [hmGet, this, ih hn.2 he]

theorem buildValue_is {w : World} {c : Config} {ls : List (String × Layer)} (h : Is c ls) (skip : Bool) :
    c.buildValue w skip = buildList w skip Value.newMap ls := by
  obtain ⟨h1, h2, h3⟩ := h
  unfold Config.buildValue
  rw [h2]
  apply buildLoop_eq
  intro e he
  rw [h1]; exact hmGet_of_mem' h3 he

theorem buildList_append (w : World) (skip : Bool) (ls ms : List (String × Layer)) : ∀ value,
    buildList w skip value (ls ++ ms) = (buildList w skip value ls).bind fun v => buildList w skip v ms := by
  induction ls with
  | nil => intro value; rfl
  | cons e ls ih =>
    intro value
    rw [List.cons_append, buildList, buildList]
    cases e.2.readValue w with
    | error x => cases skip <;> simp [ih, Except.bind]
    | ok v => exact ih _

/-- The values of the layers that can be read, in order. -/
def readables (w : World) (ls : List (String × Layer)) : List Value :=
  ls.filterMap fun e => (e.2.readValue w).toOption

theorem buildList_true (w : World) (ls : List (String × Layer)) : ∀ value,
    buildList w true value ls = .ok ((readables w ls).foldl Value.merge value) := by
  induction ls with
  | nil => intro value; rfl
  | cons e ls ih =>
    intro value
    rw [buildList, readables, List.filterMap_cons]
    cases e.2.readValue w with
    | error x => simp only [Except.toOption, if_true]; exact ih value
    | ok v => simp only [Except.toOption, List.foldl_cons]; exact ih _

theorem buildList_false (w : World) (ls : List (String × Layer)) : ∀ value,
    (∀ v, buildList w false value ls = .ok v ↔
      (∀ e ∈ ls, ∃ x, e.2.readValue w = .ok x) ∧ v = (readables w ls).foldl Value.merge value) ∧
    (∀ x, buildList w false value ls = .error x ↔
      ∃ pre e post, ls = pre ++ e :: post ∧ e.2.readValue w = .error x ∧ ∀ a ∈ pre, ∃ y, a.2.readValue w = .ok y) := by
  induction ls with
  | nil =>
    intro value
    refine ⟨fun v => ?_, fun x => ?_⟩
    · simp [buildList, readables, eq_comm]
    · constructor
      · intro h; cases h
      · rintro ⟨pre, e, post, h, -⟩; simp at h
  | cons a ls ih =>
    intro value
    rw [buildList, readables, List.filterMap_cons]
    cases hr : a.2.readValue w with
    | error y =>
      refine ⟨fun v => ?_, fun x => ?_⟩
      · constructor
        · intro h; simp at h
        · rintro ⟨h, -⟩; obtain ⟨x, hx⟩ := h a (by simp); rw [hr] at hx; cases hx
      · simp only [Bool.false_eq_true, if_false, Except.error.injEq]
        constructor
        · rintro rfl; exact ⟨[], a, ls, rfl, hr, by simp⟩
        · rintro ⟨pre, e, post, h1, h2, h3⟩
          cases pre with
          | nil => simp at h1; rw [← h1.1, hr] at h2; cases h2; rfl
          | cons b pre =>
            simp at h1
            obtain ⟨y', hy⟩ := h3 b (by simp)
            rw [← h1.1, hr] at hy; cases hy
    | ok y =>
      obtain ⟨ih1, ih2⟩ := ih (value.merge y)
      refine ⟨fun v => ?_, fun x => ?_⟩
      · simp only [Except.toOption, List.foldl_cons]
        rw [ih1 v]
        constructor
        · rintro ⟨h1, h2⟩
          refine ⟨?_, h2⟩
          intro e he
          rcases List.mem_cons.1 he with rfl | he
          · exact ⟨y, hr⟩
          · exact h1 e he
        · rintro ⟨h1, h2⟩
          exact ⟨fun e he => h1 e (by simp [he]), h2⟩
      · simp only []
        rw [ih2 x]
        constructor
        · rintro ⟨pre, e, post, h1, h2, h3⟩
          refine ⟨a :: pre, e, post, by simp [h1], h2, ?_⟩
          intro b hb
          rcases List.mem_cons.1 hb with rfl | hb
          · exact ⟨y, hr⟩
          · exact h3 b hb
        · rintro ⟨pre, e, post, h1, h2, h3⟩
          cases pre with
          | nil => simp at h1; rw [← h1.1, hr] at h2; cases h2
          | cons b pre =>
            simp at h1
            exact ⟨pre, e, post, h1.2, h2, fun c hc => h3 c (by simp [hc])⟩

/-! ### What a fold of merges shows -/

theorem isMap_foldl_merge (vs : List Value) : ∀ v : Value, (vs.foldl Value.merge v).isMap = v.isMap := by
  induction vs with
  | nil => intro v; rfl
  | cons x vs ih => intro v; rw [List.foldl_cons, ih, isMap_merge]

theorem uniqueKeys_foldl_merge (vs : List Value) : ∀ v : Value, UniqueKeys v → (∀ x ∈ vs, UniqueKeys x) →
    UniqueKeys (vs.foldl Value.merge v) := by
  induction vs with
  | nil => intro v h _; exact h
  | cons x vs ih =>
    intro v h hx
    rw [List.foldl_cons]
    exact ih _ (uniqueKeys_merge h (hx x (by simp))) (fun y hy => hx y (by simp [hy]))

theorem view_foldl_silent (p : Path) (vs : List Value) : ∀ v : Value, v.isMap = true → (∀ x ∈ vs, UniqueKeys x) →
    (∀ x ∈ vs, x.isMap = true → Silent x p) → view (vs.foldl Value.merge v) p = view v p := by
  induction vs with
  | nil => intro v _ _ _; rfl
  | cons x vs ih =>
    intro v hv hu hs
    rw [List.foldl_cons, ih _ (by rw [isMap_merge]; exact hv) (fun y hy => hu y (by simp [hy]))
      (fun y hy => hs y (by simp [hy]))]
    by_cases hx : x.isMap = true
    · exact (view_merge' hv hx (hu x (by simp)) p).1 (hs x (by simp) hx)
    · rw [merge_of_not_map_right (Bool.eq_false_iff.2 hx)]

/-! ### The built-in layers -/

theorem uniqueKeys_envStep (pre : String) (m : Entries) (var : OsStr × OsStr) (h : UniqueKeys (.map m)) :
    UniqueKeys (.map (Layer.envStep pre m var)) := by
  unfold Layer.envStep
  split
  · exact h
  · dsimp only
    split
    · split
      · exact h
      · exact uniqueKeys_insert h trivial
    · exact h

theorem uniqueKeys_readEnv {w : World} {pre : String} {v : Value} (h : Layer.readEnv w pre = .ok v) : UniqueKeys v := by
  unfold Layer.readEnv at h
  split at h
  · cases h
  · cases h
    have : ∀ (l : List (OsStr × OsStr)) (m : Entries), UniqueKeys (.map m) →
        UniqueKeys (.map (l.foldl (Layer.envStep pre) m)) := by
      intro l
      induction l with
      | nil => intro m h; exact h
      | cons a l ih => intro m h; exact ih _ (uniqueKeys_envStep pre m a h)
    exact this _ _ (uniqueKeys_map.2 ⟨List.nodup_nil, by simp⟩)

theorem uniqueKeys_textHandler {c : Codec} {w : World} {p : OsStr} {v : Value} (h : (textHandler c).read w p = .ok v) :
    UniqueKeys v := by
  simp only [textHandler] at h
  split at h
  · cases h
  · split at h
    · cases h
    · split at h
      · cases h
      · rename_i hv
        cases h
        exact uniqueKeys_visit _ _ hv

theorem envStep_skip (pre : String) (m : Entries) (var : OsStr × OsStr) (h : Prefixed pre var = false) :
    Layer.envStep (trimStr pre) m var = m := by
  unfold Prefixed at h
  unfold Layer.envStep
  split
  · rfl
  · rename_i k hk
    rw [hk] at h
    simp only [] at h ⊢
    rw [h]; rfl

theorem foldl_envStep_filter (pre : String) (l : List (OsStr × OsStr)) : ∀ m : Entries,
    l.foldl (Layer.envStep (trimStr pre)) m = (l.filter (Prefixed pre)).foldl (Layer.envStep (trimStr pre)) m := by
  induction l with
  | nil => intro m; rfl
  | cons a l ih =>
    intro m
    by_cases h : Prefixed pre a = true
    · rw [List.filter_cons_of_pos h, List.foldl_cons, List.foldl_cons, ih]
    · rw [List.filter_cons_of_neg h, List.foldl_cons, envStep_skip pre m a (by simpa using h), ih]

theorem agree_readValue {b : Build} {fm : Formats} {w w' : World} {c : RegCall} (hb : c.BuiltIn) (ha : c.Agree w w')
    {e : String × Layer} (ho : c.offer b fm = some e) : e.2.readValue w = e.2.readValue w' := by
  cases c with
  | layer => exact hb.elim
  | memory n v => simp only [RegCall.offer, Option.some.injEq] at ho; subst ho; rfl
  | environment n pre =>
    simp only [RegCall.offer, Option.some.injEq] at ho; subst ho
    simp only [Layer.readValue, Layer.readEnv]
    rw [foldl_envStep_filter, ha, ← foldl_envStep_filter]
  | file n path =>
    have key : ∀ cd : Codec, (Layer.file (textHandler cd) path).readValue w = (Layer.file (textHandler cd) path).readValue w' := by
      intro cd
      simp only [Layer.readValue, textHandler, ha.1, ha.2]
    simp only [RegCall.offer] at ho
    split at ho
    · cases ho; exact key _
    · split at ho
      · cases ho; exact key _
      · cases ho

theorem buildList_congr {w w' : World} {skip : Bool} (ls : List (String × Layer)) : ∀ value,
    (∀ e ∈ ls, e.2.readValue w = e.2.readValue w') → buildList w skip value ls = buildList w' skip value ls := by
  induction ls with
  | nil => intro v _; rfl
  | cons e ls ih =>
    intro v h
    rw [buildList, buildList, h e (by simp)]
    have ih := fun v => ih v (fun x hx => h x (by simp [hx]))
    cases e.2.readValue w' with
    | error x => simp only [ih]
    | ok y => simp only [ih]

theorem mem_firsts {α : Type} {es : List (String × α)} {e : String × α} (h : e ∈ firsts es) : e ∈ es := by
  induction es with
  | nil => cases h
  | cons a es ih =>
    obtain ⟨k, v⟩ := a
    rw [firsts] at h
    rcases List.mem_cons.1 h with rfl | h
    · simp
    · exact List.mem_cons_of_mem _ (ih (List.mem_filter.1 h).1)

theorem firsts_of_nodup {α : Type} {es : List (String × α)} (h : (es.map Prod.fst).Nodup) : firsts es = es := by
  induction es with
  | nil => rfl
  | cons a es ih =>
    obtain ⟨k, v⟩ := a
    simp only [List.map_cons, List.nodup_cons] at h
    rw [firsts, ih h.2, List.filter_eq_self.2]
    intro x hx
    have : x.1 ≠ k := fun e => h.1 (e ▸ List.mem_map_of_mem hx)
    simpa using this

theorem nodup_firsts {α : Type} (es : List (String × α)) : ((firsts es).map Prod.fst).Nodup := by
  induction es with
  | nil => exact List.nodup_nil
  | cons a es ih =>
    obtain ⟨k, v⟩ := a
    rw [firsts, List.map_cons, List.nodup_cons]
    refine ⟨?_, ?_⟩
    · intro h
      obtain ⟨x, hx, rfl⟩ := List.mem_map.1 h
      have := (List.mem_filter.1 hx).2
      simp at this
    · exact ih.sublist (List.filter_sublist.map _)

theorem firsts_append_new {α : Type} (es : List (String × α)) (e : String × α) (h : e.1 ∉ es.map Prod.fst) :
    firsts (es ++ [e]) = firsts es ++ [e] := by
  induction es with
  | nil => rfl
  | cons a es ih =>
    obtain ⟨k, v⟩ := a
    simp only [List.map_cons, List.mem_cons, not_or] at h
    rw [List.cons_append, firsts, ih h.2, firsts, List.filter_append, List.cons_append]
    congr 2
    simpa using h.1

theorem filter_firsts_readables (w : World) (ls : List (String × Layer)) :
    readables w (ls.filter fun e => (e.2.readValue w).toOption.isSome) = readables w ls := by
  induction ls with
  | nil => rfl
  | cons e ls ih =>
    unfold readables at *
    by_cases h : (e.2.readValue w).toOption.isSome = true
    · rw [List.filter_cons_of_pos (by exact h), List.filterMap_cons, List.filterMap_cons, ih]
    · rw [List.filter_cons_of_neg (by exact h), ih, List.filterMap_cons]
      have : (e.2.readValue w).toOption = none := by simpa using h
      rw [this]

end Verif
