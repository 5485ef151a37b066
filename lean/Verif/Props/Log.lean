import Verif.Spec.Log
import Verif.Lemmas.Env
import Verif.Lemmas.Path
import Verif.Props.Config
/-!
# What the crate writes to the log (C107, C108)
-/
namespace Verif.Props
open Spec

/-! ## One layer -/

/-- What one variable writes. -/
def varLog (pre : String) (var : OsStr × OsStr) : List LogRecord :=
  match osToStr var.1 with
  | none => [.envBadName var.1]
  | some k =>
    if pre.toList.isPrefixOf (trimStr k).toList then
      match osToStr var.2 with
      | none => [.envBadValue (trimStartMatches (trimStr k) pre) var.2]
      | some _ => []
    else []

theorem logEnvStep (pre : String) (m : Entries) (log : List LogRecord) (var : OsStr × OsStr) :
    LogLayer.envStep pre (m, log) var = (Layer.envStep pre m var, log ++ varLog pre var) := by
  unfold LogLayer.envStep Layer.envStep varLog
  cases osToStr var.1 with
  | none => rfl
  | some k =>
    simp only []
    by_cases h : pre.toList.isPrefixOf (trimStr k).toList = true
    · simp only [if_pos h]
      cases osToStr var.2 <;> simp
    · simp only [if_neg h]; simp

theorem logEnv_foldl (pre : String) (env : List (OsStr × OsStr)) : ∀ (m : Entries) (log : List LogRecord),
    env.foldl (LogLayer.envStep pre) (m, log) = (env.foldl (Layer.envStep pre) m, log ++ (env.map (varLog pre)).flatten) := by
  induction env with
  | nil => intro m log; simp
  | cons a env ih =>
    intro m log
    rw [List.foldl_cons, List.foldl_cons, logEnvStep, ih]
    simp

/-- The variable is under the prefix exactly if its trimmed name starts with it. -/
theorem lands_of_prefix {P : String} (hP : P ≠ "") {var : OsStr × OsStr} {name : String} (h : var.1 = os name) :
    (P.toList.isPrefixOf (trimStr name).toList = true → Lands P var (trimStartMatches (trimStr name) P)) ∧
    (P.toList.isPrefixOf (trimStr name).toList ≠ true → ∀ k, ¬ Lands P var k) := by
  have hne : P.toList ≠ [] := by
    intro h; apply hP; rw [← String.ofList_toList (s := P), h]
  constructor
  · intro hpre
    refine ⟨name, trimStr name, h, (trimStr_iff _ _).1 rfl, ?_⟩
    unfold trimStartMatches
    obtain ⟨g1, n, g2⟩ := stripAll_spec P.toList hne _ (trimStr name).toList (Nat.le_refl _)
    rw [String.toList_ofList]
    refine ⟨g1, n, ?_, g2⟩
    cases n with
    | zero =>
      exfalso
      apply g1
      rw [show times 0 P.toList = [] from rfl, List.nil_append] at g2
      rw [← g2]; exact List.isPrefixOf_iff_prefix.1 hpre
    | succ n => omega
  · rintro hpre k ⟨name', t, h1, h2, -, n, hn, h4⟩
    rw [h] at h1
    have := os_inj h1
    subst this
    apply hpre
    rw [(trimStr_iff name t).2 h2, List.isPrefixOf_iff_prefix, h4]
    obtain ⟨n', rfl⟩ : ∃ n', n = n' + 1 := ⟨n - 1, by omega⟩
    rw [times_succ, List.append_assoc]; exact ⟨_, rfl⟩

theorem osToStr_none {s : OsStr} : osToStr s = none ↔ ∀ t, s ≠ os t := by
  constructor
  · intro h t e
    rw [e, osToStr_os] at h; cases h
  · intro h
    cases e : osToStr s with
    | none => rfl
    | some t => exact absurd (osToStr_eq.1 e) (h t)

theorem varRecord_iff {P : String} (hP : P ≠ "") (var : OsStr × OsStr) (r : List LogRecord) : VarRecord P var r ↔ r = varLog P var := by
  constructor
  · intro h
    unfold varLog
    cases h with
    | badName h => rw [osToStr_none.2 h]
    | badValue k hk h =>
      have hk' := hk
      obtain ⟨name, t, h1, -⟩ := hk
      obtain ⟨l1, l2⟩ := lands_of_prefix hP h1
      rw [h1, osToStr_os]
      simp only []
      by_cases hp : P.toList.isPrefixOf (trimStr name).toList = true
      · rw [if_pos hp, osToStr_none.2 (show ∀ t, var.2 ≠ os t from h), lands_unique hP hk' (l1 hp)]
      · exact absurd hk' (l2 hp k)
    | taken k s hk h =>
      obtain ⟨name, t, h1, -⟩ := hk
      rw [h1, osToStr_os, show var.2 = os s from h, osToStr_os]
      simp
    | other s hs h =>
      obtain ⟨l1, l2⟩ := lands_of_prefix hP hs
      rw [hs, osToStr_os]
      simp only []
      by_cases hp : P.toList.isPrefixOf (trimStr s).toList = true
      · exact absurd (l1 hp) (h _)
      · rw [if_neg hp]
  · rintro rfl
    unfold varLog
    cases hn : osToStr var.1 with
    | none => exact .badName (osToStr_none.1 hn)
    | some k =>
      obtain ⟨l1, l2⟩ := lands_of_prefix hP (osToStr_eq.1 hn)
      simp only []
      by_cases hp : P.toList.isPrefixOf (trimStr k).toList = true
      · rw [if_pos hp]
        cases hv : osToStr var.2 with
        | none => exact .badValue _ (l1 hp) (osToStr_none.1 hv)
        | some s => exact .taken _ s (l1 hp) (osToStr_eq.1 hv)
      · rw [if_neg hp]
        exact .other k (osToStr_eq.1 hn) (l2 hp)

theorem forall₂_map {α β : Type} {R : α → β → Prop} {f : α → β} (h : ∀ a b, R a b ↔ b = f a) (l : List α) (m : List β) :
    List.Forall₂ R l m ↔ m = l.map f := by
  induction l generalizing m with
  | nil => constructor
           · intro h; cases h; rfl
           · rintro rfl; exact .nil
  | cons a l ih =>
    constructor
    · intro hh
      cases hh with
      | cons h1 h2 => rw [(h _ _).1 h1, (ih _).1 h2]; rfl
    · rintro rfl
      exact .cons ((h _ _).2 rfl) ((ih _).2 rfl)

theorem log_readFile (f : FileExtension) (c : Codec) (w : World) (p : OsStr) :
    LogLayer.readFile f c w p = ((textHandler c).read w p, [.reading f p]) := by
  unfold LogLayer.readFile textHandler
  simp only []
  cases w.readToString p with
  | error e => rfl
  | ok s =>
    simp only []
    cases c.parse s with
    | error e => rfl
    | ok d =>
      simp only []
      cases visit d <;> rfl

theorem log_writeFile (f : FileExtension) (c : Codec) (w : World) (p : OsStr) (v : Value) :
    LogLayer.writeFile f c w p v = ((textHandler c).write w p v, [.writing f p]) := by
  unfold LogLayer.writeFile textHandler
  simp only []
  cases c.print v.toData with
  | error e => rfl
  | ok s =>
    simp only []
    generalize w.fsWrite p s = r
    obtain ⟨r, w'⟩ := r
    cases r <;> rfl

theorem log_readValue (l : LogLayer) (w : World) :
    (l.readValue w).1 = l.toLayer.readValue w ∧ ∀ log, ReadRecords w l log ↔ log = (l.readValue w).2 := by
  cases l with
  | memory v =>
    refine ⟨rfl, fun log => ⟨?_, ?_⟩⟩
    · intro h; cases h; rfl
    · rintro rfl; exact .memory v
  | environment pre =>
    show (LogLayer.readEnv w pre).1 = Layer.readEnv w pre ∧ ∀ log, _ ↔ log = (LogLayer.readEnv w pre).2
    unfold LogLayer.readEnv Layer.readEnv
    by_cases h : pre.isEmpty = true
    · rw [if_pos h, if_pos h]
      have : pre = "" := by simpa using h
      subst this
      refine ⟨rfl, fun log => ⟨?_, ?_⟩⟩
      · intro h
        cases h with
        | blank => rfl
        | environment _ hP => exact absurd rfl hP
      · rintro rfl; exact .blank
    · rw [if_neg h, if_neg h, logEnv_foldl]
      have hP : pre ≠ "" := by simpa using h
      refine ⟨rfl, fun log => ⟨?_, ?_⟩⟩
      · intro h
        cases h with
        | blank => exact absurd rfl hP
        | environment _ _ rs hrs => rw [(forall₂_map (varRecord_iff hP) _ _).1 hrs]; rfl
      · rintro rfl
        exact .environment pre hP _ ((forall₂_map (varRecord_iff hP) _ _).2 rfl)
  | file f c p =>
    show (if w.pathExists p then LogLayer.readFile f c w p else (.ok Value.newMap, [])).1 = (if w.pathExists p then (textHandler c).read w p else .ok Value.newMap) ∧
      ∀ log, _ ↔ log = (if w.pathExists p then LogLayer.readFile f c w p else (.ok Value.newMap, [])).2
    rw [log_readFile]
    by_cases h : w.pathExists p = true
    · rw [if_pos h, if_pos h]
      refine ⟨rfl, fun log => ⟨?_, ?_⟩⟩
      · intro h'
        cases h' with
        | file => rfl
        | missing _ _ _ h' => rw [h] at h'; cases h'
      · rintro rfl; exact .file f c p h
    · rw [if_neg h, if_neg h]
      have h0 : w.pathExists p = false := by simpa using h
      refine ⟨rfl, fun log => ⟨?_, ?_⟩⟩
      · intro h'
        cases h' with
        | file _ _ _ h' => exact absurd h' h
        | missing => rfl
      · rintro rfl; exact .missing f c p h0
  | foreign h p =>
    refine ⟨rfl, fun log => ⟨?_, ?_⟩⟩
    · intro h; cases h; rfl
    · rintro rfl; exact .foreign h p
  | user l =>
    refine ⟨rfl, fun log => ⟨?_, ?_⟩⟩
    · intro h; cases h; rfl
    · rintro rfl; exact .user l

theorem log_writeValue (l : LogLayer) (w : World) (v : Value) : (l.writeValue w v).1 = l.toLayer.writeValue w v := by
  cases l with
  | file f c p => show (LogLayer.writeFile f c w p v).1 = _; rw [log_writeFile]; rfl
  | _ => rfl

/-! ## Registering -/

/-- The configuration is exactly this list of named layers. -/
def IsLog (c : LogConfig) (ls : List (String × LogLayer)) : Prop := c.layers = ls ∧ c.names = ls.map Prod.fst ∧ (ls.map Prod.fst).Nodup

theorem isLog_push {c : LogConfig} {ls : List (String × LogLayer)} (h : IsLog c ls) (name : String) (l : LogLayer) :
    IsLog (c.pushLayer name l).1 (pushTo ls (name, l)) ∧ (c.pushLayer name l).2 = if name ∈ ls.map Prod.fst then [.layerExists name] else [] := by
  obtain ⟨h1, h2, h3⟩ := h
  unfold LogConfig.pushLayer pushTo
  by_cases hm : name ∈ ls.map Prod.fst
  · have : (hmGet c.layers name).isSome = true := by rw [hmGet_isSome_iff, h1]; exact hm
    rw [if_pos this, if_pos hm, if_pos hm]
    exact ⟨⟨h1, h2, h3⟩, rfl⟩
  · have : ¬ (hmGet c.layers name).isSome = true := by rw [hmGet_isSome_iff, h1]; exact hm
    rw [if_neg this, if_neg hm, if_neg hm]
    refine ⟨⟨by simp only [h1]; exact hmInsert_new ls name l hm, by simp [h2], ?_⟩, rfl⟩
    rw [List.map_append, List.nodup_append]
    refine ⟨h3, by simp, ?_⟩
    intro a ha b hb
    simp at hb; subst hb
    exact fun e => hm (e ▸ ha)

theorem log_addFileLayer (b : Build) (fm : Formats) (c : LogConfig) (name : String) (path : OsStr) :
    c.addFileLayer b fm name path =
      match (LogCall.file name path).offer b fm with
      | some (n, l) => ((.ok (), (c.pushLayer n l).1), (c.pushLayer n l).2)
      | none => ((.error (.configLayerError (.unsupportedExtension (((pathExtension path).bind osToStr).getD ""))), c), []) := by
  unfold LogConfig.addFileLayer LogCall.offer
  by_cases h1 : b.toml = true ∧ pathExtension path = some (os "toml")
  · have : (b.toml && FileExtension.toml.matchPath path) = true := by
      rw [Bool.and_eq_true, matchPath_toml]; exact h1
    rw [if_pos this]; simp only [if_pos h1]
  · have : ¬ (b.toml && FileExtension.toml.matchPath path) = true := by
      rw [Bool.and_eq_true, matchPath_toml]; exact h1
    rw [if_neg this]
    by_cases h2 : b.json = true ∧ pathExtension path = some (os "json")
    · have : (b.json && FileExtension.json.matchPath path) = true := by
        rw [Bool.and_eq_true, matchPath_json]; exact h2
      rw [if_pos this]; simp only [if_neg h1, if_pos h2]
    · have : ¬ (b.json && FileExtension.json.matchPath path) = true := by
        rw [Bool.and_eq_true, matchPath_json]; exact h2
      rw [if_neg this]; simp only [if_neg h1, if_neg h2]

/-- The name an offer has, if its call makes one. -/
theorem isLog_apply {b : Build} {fm : Formats} {c : LogConfig} {ls : List (String × LogLayer)} (h : IsLog c ls) (call : LogCall) :
    IsLog (call.apply b fm c).1 (match call.offer b fm with | some e => pushTo ls e | none => ls) ∧
    (call.apply b fm c).2 = match call.offer b fm with | some e => if e.1 ∈ ls.map Prod.fst then [.layerExists e.1] else [] | none => [] := by
  cases call with
  | layer name l => exact isLog_push h name l
  | environment name pre => exact isLog_push h name _
  | memory name v => exact isLog_push h name _
  | file name path =>
    rw [LogCall.apply, log_addFileLayer]
    cases (LogCall.file name path).offer b fm with
    | none => exact ⟨h, rfl⟩
    | some e => exact isLog_push h e.1 e.2

theorem registerLog_append (b : Build) (fm : Formats) (calls : List LogCall) (call : LogCall) :
    registerLog b fm (calls ++ [call]) = ((call.apply b fm (registerLog b fm calls).1).1,
      (registerLog b fm calls).2 ++ (call.apply b fm (registerLog b fm calls).1).2) := by
  unfold registerLog
  rw [List.foldl_append]
  rfl

theorem firsts_append {α : Type} (es : List (String × α)) (e : String × α) : firsts (es ++ [e]) = pushTo (firsts es) e := by
  have h := foldl_pushTo (es ++ [e]) []
  have h' := foldl_pushTo es []
  rw [List.foldl_append] at h
  simp only [List.foldl_cons, List.foldl_nil, List.nil_append, List.map_nil, List.not_mem_nil, not_false_eq_true, decide_true] at h h'
  rw [h'] at h
  simp only [List.filter_true] at h
  exact h.symm

theorem again_append (ns : List String) (n : String) : again (ns ++ [n]) = again ns ++ if n ∈ ns then [n] else [] := by
  unfold again
  rw [List.zipIdx_append, List.filter_append, List.map_append]
  congr 1
  · congr 1
    apply List.filter_congr
    intro x hx
    have := List.snd_lt_of_mem_zipIdx hx
    rw [List.take_append_of_le_length (by omega)]
  · simp only [List.zipIdx_cons, List.zipIdx_nil, Nat.zero_add, List.filter_cons, List.filter_nil, List.take_left]
    by_cases h : n ∈ ns <;> simp [h]

theorem mem_firsts_names {α : Type} (es : List (String × α)) (k : String) : k ∈ (firsts es).map Prod.fst ↔ k ∈ es.map Prod.fst := by
  rw [← hmGet_isSome_iff, find_firsts, Option.isSome_map, List.find?_isSome, List.mem_map]
  constructor
  · rintro ⟨x, hx, h⟩; exact ⟨x, hx, by simpa using h⟩
  · rintro ⟨x, hx, h⟩; exact ⟨x, hx, by simpa using h⟩

theorem isLog_register (b : Build) (fm : Formats) (calls : List LogCall) :
    IsLog (registerLog b fm calls).1 (registered b fm calls) ∧
    (registerLog b fm calls).2 = (again ((calls.filterMap (LogCall.offer b fm)).map Prod.fst)).map LogRecord.layerExists := by
  induction calls using List.reverseRecOn with
  | nil => exact ⟨⟨rfl, rfl, List.nodup_nil⟩, rfl⟩
  | append_singleton calls call ih =>
    obtain ⟨i1, i2⟩ := ih
    obtain ⟨a1, a2⟩ := isLog_apply (b := b) (fm := fm) i1 call
    rw [registerLog_append]
    unfold registered
    rw [List.filterMap_append]
    simp only [List.filterMap_cons, List.filterMap_nil]
    cases ho : call.offer b fm with
    | none =>
      rw [ho] at a1 a2
      simp only [List.append_nil]
      exact ⟨a1, by rw [a2, List.append_nil, i2]⟩
    | some e =>
      rw [ho] at a1 a2
      simp only []
      refine ⟨by rw [firsts_append]; exact a1, ?_⟩
      rw [a2, i2, List.map_append, List.map_cons, List.map_nil, again_append, List.map_append]
      congr 1
      show (if e.1 ∈ (firsts _).map Prod.fst then _ else _) = _
      simp only [mem_firsts_names]
      by_cases h : e.1 ∈ (calls.filterMap (LogCall.offer b fm)).map Prod.fst
      · rw [if_pos h, if_pos h]; rfl
      · rw [if_neg h, if_neg h]; rfl

/-! ## Building -/

/-- The loop over the layers themselves. -/
def buildLogList (w : World) (skip : Bool) (value : Value) (log : List LogRecord) : List (String × LogLayer) → Except BakuninError Value × List LogRecord
  | [] => (.ok value, log)
  | e :: ls =>
    match e.2.readValue w with
    | (.error x, more) => if skip then buildLogList w skip value (log ++ more ++ [.readError e.1 x]) ls else (.error x, log ++ more)
    | (.ok v, more) => buildLogList w skip (value.merge v) (log ++ more) ls

theorem buildLogLoop_eq (w : World) (c : LogConfig) (skip : Bool) (ls : List (String × LogLayer)) : ∀ value log, (∀ e ∈ ls, hmGet c.layers e.1 = some e.2) →
    LogConfig.buildLoop w c skip value log (ls.map Prod.fst) = buildLogList w skip value log ls := by
  induction ls with
  | nil => intro value log _; rfl
  | cons e ls ih =>
    intro value log h
    rw [List.map_cons, LogConfig.buildLoop, h e (by simp), buildLogList]
    have ih := fun value log => ih value log (fun x hx => h x (by simp [hx]))
    simp only []
    generalize e.2.readValue w = r
    obtain ⟨r, more⟩ := r
    cases r with
    | error x => cases skip <;> simp [ih]
    | ok v => simp [ih]

theorem buildLog_is {w : World} {c : LogConfig} {ls : List (String × LogLayer)} (h : IsLog c ls) (skip : Bool) :
    c.buildValue w skip = buildLogList w skip Value.newMap [] ls := by
  obtain ⟨h1, h2, h3⟩ := h
  unfold LogConfig.buildValue
  rw [h2]
  apply buildLogLoop_eq
  intro e he
  rw [h1]
  exact hmGet_of_mem' h3 he

theorem buildLogList_spec (w : World) (skip : Bool) (ls : List (String × LogLayer)) : ∀ value log,
    (buildLogList w skip value log ls).1 = buildList w skip value (ls.map fun e => (e.1, e.2.toLayer)) ∧
    ∀ more, BuildRecords w skip ls more ↔ log ++ more = (buildLogList w skip value log ls).2 := by
  induction ls with
  | nil =>
    intro value log
    refine ⟨rfl, fun more => ⟨?_, ?_⟩⟩
    · intro h; cases h; simp [buildLogList]
    · intro h
      have : more = [] := by simpa [buildLogList] using h
      subst this; exact .nil
  | cons e ls ih =>
    intro value log
    obtain ⟨n, l⟩ := e
    obtain ⟨r1, r2⟩ := log_readValue l w
    rw [buildLogList, List.map_cons, buildList]
    simp only []
    rw [← r1]
    generalize hr : l.readValue w = r
    obtain ⟨r, lg⟩ := r
    rw [hr] at r1 r2
    simp only at r1 r2
    have hl : ReadRecords w l lg := (r2 lg).2 rfl
    cases r with
    | error x =>
      cases skip with
      | true =>
        simp only [if_true]
        obtain ⟨i1, i2⟩ := ih value (log ++ lg ++ [.readError n x])
        refine ⟨i1, fun more => ⟨?_, ?_⟩⟩
        · intro h
          cases h with
          | read _ _ v _ _ _ hv => rw [← r1] at hv; cases hv
          | skipped _ _ x' lg' _ rest _ hx hlg hrest =>
            rw [← r1] at hx; cases hx
            rw [(r2 lg').1 hlg, ← (i2 rest).1 hrest]
            simp
          | stopped _ _ _ _ _ hs => cases hs
        · intro h
          have hpre : (log ++ lg ++ [LogRecord.readError n x]) <+: (buildLogList w true value (log ++ lg ++ [.readError n x]) ls).2 := by
            have : ∀ (ls : List (String × LogLayer)) value log, log <+: (buildLogList w true value log ls).2 := by
              intro ls
              induction ls with
              | nil => intro value log; exact List.prefix_refl _
              | cons e ls ih =>
                intro value log
                rw [buildLogList]
                generalize e.2.readValue w = r
                obtain ⟨r, m⟩ := r
                cases r with
                | error x =>
                  simp only [if_true]
                  exact ((List.prefix_append log m).trans (List.prefix_append _ _)).trans (ih _ _)
                | ok v =>
                  simp only []
                  exact (List.prefix_append log m).trans (ih _ _)
            exact this ls value _
          obtain ⟨rest, hrest⟩ := hpre
          rw [← hrest] at h
          have : more = lg ++ .readError n x :: rest := by
            have h' : log ++ more = log ++ (lg ++ .readError n x :: rest) := by rw [h]; simp
            exact List.append_cancel_left h'
          subst this
          exact .skipped n l x lg ls rest rfl (by rw [← r1]) hl ((i2 rest).2 hrest)
      | false =>
        simp only [Bool.false_eq_true, if_false]
        refine ⟨by trivial, fun more => ⟨?_, ?_⟩⟩
        · intro h
          cases h with
          | read _ _ v _ _ _ hv => rw [← r1] at hv; cases hv
          | skipped _ _ x' lg' _ rest hs => cases hs
          | stopped _ _ _ _ _ _ _ hlg => rw [(r2 _).1 hlg]
        · intro h
          have := List.append_cancel_left h
          subst this
          exact .stopped n l x more ls rfl (by rw [← r1]) hl
    | ok v =>
      simp only []
      obtain ⟨i1, i2⟩ := ih (value.merge v) (log ++ lg)
      refine ⟨i1, fun more => ⟨?_, ?_⟩⟩
      · intro h
        cases h with
        | read _ _ v' lg' _ rest hv hlg hrest =>
          rw [(r2 lg').1 hlg, ← (i2 rest).1 hrest]
          simp
        | skipped _ _ x' lg' _ rest _ hx => rw [← r1] at hx; cases hx
        | stopped _ _ _ _ _ _ hx => rw [← r1] at hx; cases hx
      · intro h
        have hpre : (log ++ lg) <+: (buildLogList w skip (value.merge v) (log ++ lg) ls).2 := by
          have : ∀ (ls : List (String × LogLayer)) value log, log <+: (buildLogList w skip value log ls).2 := by
            intro ls
            induction ls with
            | nil => intro value log; exact List.prefix_refl _
            | cons e ls ih =>
              intro value log
              rw [buildLogList]
              generalize e.2.readValue w = r
              obtain ⟨r, m⟩ := r
              cases r with
              | error x =>
                cases skip with
                | true =>
                  simp only [if_true]
                  exact ((List.prefix_append log m).trans (List.prefix_append _ _)).trans (ih _ _)
                | false => exact List.prefix_append log m
              | ok v =>
                simp only []
                exact (List.prefix_append log m).trans (ih _ _)
          exact this ls _ _
        obtain ⟨rest, hrest⟩ := hpre
        rw [← hrest] at h
        have : more = lg ++ rest := by
          have h' : log ++ more = log ++ (lg ++ rest) := by rw [h]; simp
          exact List.append_cancel_left h'
        subst this
        exact .read n l v lg ls rest (by rw [← r1]) hl ((i2 rest).2 hrest)

/-! ## C107 -/

theorem plain_offer (b : Build) (fm : Formats) (call : LogCall) :
    call.plain.offer b fm = (call.offer b fm).map fun e => (e.1, e.2.toLayer) := by
  cases call with
  | file name path =>
    simp only [LogCall.plain, RegCall.offer, LogCall.offer]
    split
    · rfl
    · split <;> rfl
  | _ => rfl

theorem plain_offers (b : Build) (fm : Formats) (calls : List LogCall) :
    offers b fm (calls.map LogCall.plain) = (calls.filterMap (LogCall.offer b fm)).map fun e => (e.1, e.2.toLayer) := by
  unfold offers
  rw [List.filterMap_map, List.map_filterMap]
  apply List.filterMap_congr
  intro call _
  exact plain_offer b fm call

theorem firsts_plain (es : List (String × LogLayer)) :
    firsts (es.map fun e => (e.1, e.2.toLayer)) = (firsts es).map fun e => (e.1, e.2.toLayer) := by
  induction es with
  | nil => rfl
  | cons e es ih =>
    obtain ⟨k, v⟩ := e
    rw [List.map_cons, firsts, firsts, List.map_cons, ih, List.filter_map]
    rfl

theorem registered_plain (b : Build) (fm : Formats) (calls : List LogCall) :
    firsts (offers b fm (calls.map LogCall.plain)) = (registered b fm calls).map fun e => (e.1, e.2.toLayer) := by
  rw [plain_offers, firsts_plain]; rfl

/-- **C107**, logging changes nothing: registering, reading, writing and building have the results of Model/Layer.lean and Model/Config.lean, of which all other properties speak. -/
theorem C107_same (b : Build) (fm : Formats) (calls : List LogCall) (w : World) (skip : Bool) (l : LogLayer) (v : Value) :
    plainConfig (registerLog b fm calls).1 = register b fm (calls.map LogCall.plain) ∧
    ((registerLog b fm calls).1.buildValue w skip).1 = (register b fm (calls.map LogCall.plain)).buildValue w skip ∧
    (l.readValue w).1 = l.toLayer.readValue w ∧ (l.writeValue w v).1 = l.toLayer.writeValue w v := by
  obtain ⟨h1, h2, h3⟩ := (isLog_register b fm calls).1
  obtain ⟨g1, g2, -⟩ := is_register b fm (calls.map LogCall.plain)
  refine ⟨?_, ?_, (log_readValue l w).1, log_writeValue l w v⟩
  · have e : ∀ c : Config, c = ⟨c.names, c.layers⟩ := fun _ => rfl
    rw [e (register b fm _), g1, g2, plainConfig, h1, h2, registered_plain, List.map_map]
    rfl
  · rw [buildLog_is ⟨h1, h2, h3⟩, (buildLogList_spec w skip _ _ _).1, buildValue_is (is_register b fm _), registered_plain]

/-- **C107**, everything a build writes: layer by layer in order of registration what reading the layer writes, with a warning, naming the layer and the error, after each layer that was skipped; nothing
after the layer that ended the build. Reading a file layer writes one record with the path, if the file is there; reading an environment layer writes the prefix, and then
one record for each variable whose name is not text, or that has the prefix and whose value is not text. -/
theorem C107_build (b : Build) (fm : Formats) (calls : List LogCall) (w : World) (skip : Bool) (log : List LogRecord) :
    ((registerLog b fm calls).1.buildValue w skip).2 = log ↔ BuildRecords w skip (registered b fm calls) log := by
  rw [buildLog_is (isLog_register b fm calls).1, (buildLogList_spec w skip _ Value.newMap []).2 log, List.nil_append]
  exact eq_comm

theorem readRecords_quiet {w : World} {l : LogLayer} {log : List LogRecord} (h : ReadRecords w l log) : warnings log = [] := by
  cases h with
  | environment P hP rs hrs =>
    unfold warnings
    rw [List.filter_cons_of_neg (by simp [LogRecord.level]), List.filter_eq_nil_iff]
    intro r hr
    obtain ⟨x, hx, hr⟩ := List.mem_flatten.1 hr
    obtain ⟨i, hi, rfl⟩ := List.mem_iff_getElem.1 hx
    have : VarRecord P (w.env[i]'(by rw [hrs.length_eq]; exact hi)) rs[i] := (List.forall₂_iff_get.1 hrs).2 i _ hi
    generalize rs[i] = q at this hr
    cases this with
    | badName => simp at hr; subst hr; simp [LogRecord.level]
    | badValue => simp at hr; subst hr; simp [LogRecord.level]
    | taken => cases hr
    | other => cases hr
  | _ => rfl

theorem warnings_append (a b : List LogRecord) : warnings (a ++ b) = warnings a ++ warnings b := List.filter_append _ _

theorem buildRecords_warnings {w : World} {skip : Bool} {ls : List (String × LogLayer)} {log : List LogRecord} (h : BuildRecords w skip ls log) :
    warnings log = if skip then ls.filterMap (fun e => match e.2.toLayer.readValue w with | .error x => some (.readError e.1 x) | .ok _ => none) else [] := by
  induction h with
  | nil => cases skip <;> rfl
  | read n l v log ls rest hv hl _ ih =>
    rw [warnings_append, readRecords_quiet hl, ih, List.nil_append, List.filterMap_cons]
    simp only [hv]
  | skipped n l e log ls rest hs he hl _ ih =>
    subst hs
    rw [warnings_append, readRecords_quiet hl, List.nil_append, List.filterMap_cons]
    simp only [he, if_true] at ih ⊢
    unfold warnings at ih ⊢
    rw [List.filter_cons_of_pos (by simp [LogRecord.level]), ih]
  | stopped n l e log ls hs he hl =>
    subst hs
    rw [readRecords_quiet hl]; rfl

/-- **C107**, the warnings of a build that skips errors are the layers that could not be read, in order of registration, each once, with its error; a build that does not skip errors warns of nothing. -/
theorem C107_warnings (b : Build) (fm : Formats) (calls : List LogCall) (w : World) :
    warnings ((registerLog b fm calls).1.buildValue w true).2 =
      (firsts (offers b fm (calls.map LogCall.plain))).filterMap
        (fun e => match e.2.readValue w with | .error x => some (.readError e.1 x) | .ok _ => none) ∧
    warnings ((registerLog b fm calls).1.buildValue w false).2 = [] := by
  refine ⟨?_, buildRecords_warnings ((C107_build b fm calls w false _).1 rfl)⟩
  rw [buildRecords_warnings ((C107_build b fm calls w true _).1 rfl), registered_plain, List.filterMap_map]
  rfl

/-- **C107**, silence is success: a build that skips errors warns of nothing exactly if the build that does not skip them succeeds, and then both give the same value. -/
theorem C107_quiet (b : Build) (fm : Formats) (calls : List LogCall) (w : World) :
    (warnings ((registerLog b fm calls).1.buildValue w true).2 = [] ↔ ∃ v, ((registerLog b fm calls).1.buildValue w false).1 = .ok v) ∧
    ∀ v, ((registerLog b fm calls).1.buildValue w false).1 = .ok v → ((registerLog b fm calls).1.buildValue w true).1 = .ok v := by
  have hs := fun skip => (C107_same b fm calls w skip (.memory .none) .none).2.1
  rw [(C107_warnings b fm calls w).1, hs true, hs false, buildValue_is (is_register b fm _), buildValue_is (is_register b fm _)]
  generalize firsts (offers b fm (calls.map LogCall.plain)) = ls
  generalize Value.newMap = value
  induction ls generalizing value with
  | nil => exact ⟨⟨fun _ => ⟨value, rfl⟩, fun _ => rfl⟩, fun v h => h⟩
  | cons e ls ih =>
    rw [List.filterMap_cons, buildList, buildList]
    cases e.2.readValue w with
    | error x => simp
    | ok v => exact ih _

/-- **C107**, registering: the one record is that a name is taken, for each name offered again, in order; it is below the level of warnings. -/
theorem C107_registering (b : Build) (fm : Formats) (calls : List LogCall) :
    (registerLog b fm calls).2 = (again ((offers b fm (calls.map LogCall.plain)).map Prod.fst)).map LogRecord.layerExists ∧
    warnings (registerLog b fm calls).2 = [] := by
  rw [(isLog_register b fm calls).2, plain_offers, List.map_map]
  refine ⟨rfl, ?_⟩
  unfold warnings
  rw [List.filter_eq_nil_iff]
  intro r hr
  obtain ⟨n, -, rfl⟩ := List.mem_map.1 hr
  simp [LogRecord.level]

/-! ## C108 -/

theorem varLog_same {P : String} {a b : OsStr × OsStr} (h : a.1 = b.1 ∧ (a.2 = b.2 ∨ ∃ s t, HasText a s ∧ HasText b t)) : varLog P a = varLog P b := by
  obtain ⟨h1, h2⟩ := h
  unfold varLog
  rw [h1]
  rcases h2 with h2 | ⟨s, t, h2, h3⟩
  · rw [h2]
  · rw [show a.2 = os s from h2, show b.2 = os t from h3, osToStr_os, osToStr_os]

theorem twins_read {w w' : World} (he : SameNames w.env w'.env) {l l' : LogLayer} (h : Twins w w' l l') :
    SameOutcome (l.readValue w).1 (l'.readValue w').1 ∧ (l.readValue w).2 = (l'.readValue w').2 := by
  cases h with
  | memory v v' => exact ⟨Or.inl ⟨v, v', rfl, rfl⟩, rfl⟩
  | environment pre =>
    show SameOutcome (LogLayer.readEnv w pre).1 (LogLayer.readEnv w' pre).1 ∧ (LogLayer.readEnv w pre).2 = (LogLayer.readEnv w' pre).2
    unfold LogLayer.readEnv
    by_cases hp : pre.isEmpty = true
    · rw [if_pos hp, if_pos hp]; exact ⟨Or.inr ⟨_, rfl, rfl⟩, rfl⟩
    · rw [if_neg hp, if_neg hp, logEnv_foldl, logEnv_foldl]
      refine ⟨Or.inl ⟨_, _, rfl, rfl⟩, ?_⟩
      have : w.env.map (varLog pre) = w'.env.map (varLog pre) := by
        generalize w.env = e at he
        generalize w'.env = e' at he
        unfold SameNames at he
        induction he with
        | nil => rfl
        | cons h _ ih => rw [List.map_cons, List.map_cons, varLog_same h, ih]
      simp only [this]
  | file f c c' p hx ho =>
    rw [← (log_readValue _ w).1, ← (log_readValue _ w').1] at ho
    refine ⟨ho, ?_⟩
    show (if w.pathExists p then LogLayer.readFile f c w p else (.ok Value.newMap, [])).2 = (if w'.pathExists p then LogLayer.readFile f c' w' p else (.ok Value.newMap, [])).2
    rw [← hx, log_readFile, log_readFile]
    cases w.pathExists p <;> rfl
  | foreign h h' p p' ho => exact ⟨ho, rfl⟩
  | user l l' ho => exact ⟨ho, rfl⟩

/-- **C108.** The values of a configuration do not get into the log: two builds of the same layers write the same, whatever the layers in memory hold, whatever text the environment variables
have as values, and whatever the files contain, as long as the same files exist and the same layers fail, with the same errors. -/
theorem C108_build (b b' : Build) (fm fm' : Formats) (calls calls' : List LogCall) (w w' : World) (skip : Bool) (he : SameNames w.env w'.env)
    (h : List.Forall₂ (fun x y => x.1 = y.1 ∧ Twins w w' x.2 y.2) (registered b fm calls) (registered b' fm' calls')) :
    ((registerLog b fm calls).1.buildValue w skip).2 = ((registerLog b' fm' calls').1.buildValue w' skip).2 := by
  rw [buildLog_is (isLog_register b fm calls).1, buildLog_is (isLog_register b' fm' calls').1]
  have : ∀ value value' log, (buildLogList w skip value log (registered b fm calls)).2 = (buildLogList w' skip value' log (registered b' fm' calls')).2 := by
    generalize registered b fm calls = ls at h
    generalize registered b' fm' calls' = ls' at h
    induction h with
    | nil => intro _ _ _; rfl
    | cons hxy _ ih =>
      rename_i x y ls ls' _
      intro value value' log
      obtain ⟨hn, ht⟩ := hxy
      obtain ⟨ho, hl⟩ := twins_read he ht
      rw [buildLogList, buildLogList]
      generalize x.2.readValue w = r at ho hl
      generalize y.2.readValue w' = r' at ho hl
      obtain ⟨r, lg⟩ := r
      obtain ⟨r', lg'⟩ := r'
      simp only at ho hl
      subst hl
      rcases ho with ⟨v, v', rfl, rfl⟩ | ⟨e, rfl, rfl⟩
      · exact ih _ _ _
      · cases skip with
        | true => simp only [if_true, hn]; exact ih _ _ _
        | false => rfl
  exact this _ _ _

/-- **C108**, writing: the log tells the format and the path, whatever the value is and whatever comes of it. -/
theorem C108_write (w : World) (v : Value) (f : FileExtension) (c : Codec) (p : OsStr) (x : Value) (pre : String) :
    ((LogLayer.file f c p).writeValue w v).2 = [.writing f p] ∧ ((LogLayer.memory x).writeValue w v).2 = [] ∧ ((LogLayer.environment pre).writeValue w v).2 = [] := by
  refine ⟨?_, rfl, rfl⟩
  show (LogLayer.writeFile f c w p v).2 = _
  rw [log_writeFile]

theorem buildRecords_env {w : World} {ls : List (String × LogLayer)} {log : List LogRecord} (h : BuildRecords w true ls log)
    {n P : String} (hm : (n, LogLayer.environment P) ∈ ls) : ∃ lg, ReadRecords w (.environment P) lg ∧ ∀ r ∈ lg, r ∈ log := by
  induction h with
  | nil => cases hm
  | read n' l v lg ls rest hv hl _ ih =>
    rcases List.mem_cons.1 hm with e | hm
    · cases e; exact ⟨lg, hl, fun r hr => by simp [hr]⟩
    · obtain ⟨lg', h1, h2⟩ := ih hm
      exact ⟨lg', h1, fun r hr => by simp [h2 r hr]⟩
  | skipped n' l e lg ls rest hs he hl _ ih =>
    rcases List.mem_cons.1 hm with e | hm
    · cases e; exact ⟨lg, hl, fun r hr => by simp [hr]⟩
    · obtain ⟨lg', h1, h2⟩ := ih hm
      exact ⟨lg', h1, fun r hr => by simp [h2 r hr]⟩
  | stopped _ _ _ _ _ hs => cases hs

/-- **C108**, what does get into the log: with an environment layer registered, a build that skips errors writes (below the level of warnings) the key and the value of every variable with the
prefix whose value is not text, and the name of every variable, with the prefix or not, whose name is not text. -/
theorem C108_leaks (b : Build) (fm : Formats) (calls : List LogCall) (w : World) (n P : String) (hP : P ≠ "") (hl : (n, LogLayer.environment P) ∈ registered b fm calls)
    (var : OsStr × OsStr) (hv : var ∈ w.env) :
    (∀ k, Lands P var k → (∀ s, ¬ HasText var s) → .envBadValue k var.2 ∈ ((registerLog b fm calls).1.buildValue w true).2) ∧
    ((∀ s, var.1 ≠ os s) → .envBadName var.1 ∈ ((registerLog b fm calls).1.buildValue w true).2) := by
  obtain ⟨lg, h1, h2⟩ := buildRecords_env ((C107_build b fm calls w true _).1 rfl) hl
  cases h1 with
  | blank => exact absurd rfl hP
  | environment _ _ rs hrs =>
    obtain ⟨i, hi, rfl⟩ := List.mem_iff_getElem.1 hv
    have hrec : VarRecord P w.env[i] (rs[i]'(by rw [← hrs.length_eq]; exact hi)) := (List.forall₂_iff_get.1 hrs).2 i hi _
    have hin : ∀ r ∈ rs[i]'(by rw [← hrs.length_eq]; exact hi), r ∈ ((registerLog b fm calls).1.buildValue w true).2 := by
      intro r hr
      exact h2 r (List.mem_cons_of_mem _ (List.mem_flatten.2 ⟨_, List.getElem_mem _, hr⟩))
    generalize rs[i]'(by rw [← hrs.length_eq]; exact hi) = q at hrec hin
    rw [varRecord_iff hP] at hrec
    constructor
    · intro k hk ht
      apply hin
      rw [hrec, ← (varRecord_iff hP _ _).1 (.badValue k hk ht)]
      simp
    · intro hb
      apply hin
      rw [hrec, ← (varRecord_iff hP _ _).1 (.badName hb)]
      simp

/-! ## Example -/

/-- The calls of `exCalls`, with a variable whose value is not text, one whose name is not text, and a secret. -/
def exLogCalls : List LogCall :=
  [.memory "d" (.map [("k", .string "old"), ("text", .map [("x", .none)])]), .file "f" (os "/a.toml"),
   .file "g" (os "/b.toml"), .environment "e" " APP_ ", .memory "d" (.string "ignored"), .file "h" (os "/c.yaml")]
def exLogWorld : World :=
  { exDisk with env := [(os "APP_k", os "v"), (os "APP_bad", [.raw 255]), (.raw 254 :: os "PATH", os "/bin"), (os "APP_secret", os "hunter2")] }

example : exLogCalls.map LogCall.plain = exCalls := rfl

example : (registerLog exB1 exFormats exLogCalls).2 = [.layerExists "d"] := by decide

/-- The whole log of a build: the good file, the malformed file and the warning about it, and the environment. -/
theorem exLog_build : ((registerLog exB1 exFormats exLogCalls).1.buildValue exLogWorld true).2 =
    [.reading .toml (os "/a.toml"), .reading .toml (os "/b.toml"), .readError "g" (.configLayerError (.parseError "syntax")),
     .envLoading "APP_", .envBadValue "bad" [.raw 255], .envBadName (.raw 254 :: os "PATH")] := by decide

example : BuildRecords exLogWorld true (registered exB1 exFormats exLogCalls) ((registerLog exB1 exFormats exLogCalls).1.buildValue exLogWorld true).2 :=
  (C107_build exB1 exFormats exLogCalls exLogWorld true _).1 rfl

/-- The build that does not skip errors stops at the malformed file, and the build that does warns. -/
example : (¬ ∃ v, ((registerLog exB1 exFormats exLogCalls).1.buildValue exLogWorld false).1 = .ok v) ∧
    warnings ((registerLog exB1 exFormats exLogCalls).1.buildValue exLogWorld true).2 = [.readError "g" (.configLayerError (.parseError "syntax"))] := by
  have h : warnings ((registerLog exB1 exFormats exLogCalls).1.buildValue exLogWorld true).2 = [.readError "g" (.configLayerError (.parseError "syntax"))] := by
    rw [exLog_build]; decide
  refine ⟨fun hv => ?_, h⟩
  rw [(C107_quiet exB1 exFormats exLogCalls exLogWorld).1.2 hv] at h
  cases h

/-- Another secret, other defaults, another text in the good file: the same log. -/
def exLogWorld' : World :=
  { exLogWorld with
    disk := fun s => if s = 1 then .file (utf8 "something else") none none else if s = 2 then .file (utf8 "bad") none none else .absent none,
    env := [(os "APP_k", os "vv"), (os "APP_bad", [.raw 255]), (.raw 254 :: os "PATH", os "/bin"), (os "APP_secret", os "swordfish")] }
def exLogCalls' : List LogCall :=
  [.memory "d" (.map [("k", .string "new")]), .file "f" (os "/a.toml"), .file "g" (os "/b.toml"), .environment "e" " APP_ "]

example : ((registerLog exB1 exFormats exLogCalls).1.buildValue exLogWorld true).2 = ((registerLog exB1 exFormats exLogCalls').1.buildValue exLogWorld' true).2 := by
  refine C108_build exB1 exB1 exFormats exFormats exLogCalls exLogCalls' exLogWorld exLogWorld' true ?_ ?_
  · exact .cons ⟨rfl, Or.inr ⟨"v", "vv", rfl, rfl⟩⟩ (.cons ⟨rfl, Or.inl rfl⟩ (.cons ⟨rfl, Or.inl rfl⟩ (.cons ⟨rfl, Or.inr ⟨"hunter2", "swordfish", rfl, rfl⟩⟩ .nil)))
  · show List.Forall₂ _ [_, _, _, _] [_, _, _, _]
    refine .cons ⟨rfl, .memory _ _⟩ (.cons ⟨rfl, .file _ _ _ _ rfl (Or.inl ⟨_, _, rfl, rfl⟩)⟩
      (.cons ⟨rfl, .file _ _ _ _ rfl (Or.inr ⟨_, rfl, rfl⟩)⟩ (.cons ⟨rfl, ?_⟩ .nil)))
    exact .environment _

example : LogRecord.envBadValue "bad" [.raw 255] ∈ ((registerLog exB1 exFormats exLogCalls).1.buildValue exLogWorld true).2 := by
  refine (C108_leaks exB1 exFormats exLogCalls exLogWorld "e" "APP_" (by decide) ?_ (os "APP_bad", [.raw 255]) (by simp [exLogWorld])).1 "bad" ?_ ?_
  · rw [show registered exB1 exFormats exLogCalls = [_, _, _, ("e", .environment (trimStr " APP_ "))] from rfl]
    rw [show trimStr " APP_ " = "APP_" by decide]; simp
  · have := (lands_of_prefix (P := "APP_") (by decide) (var := (os "APP_bad", [.raw 255])) (name := "APP_bad") rfl).1 (by decide)
    rwa [show trimStartMatches (trimStr "APP_bad") "APP_" = "bad" by decide] at this
  · intro s h
    have := congrArg osToStr (show ([.raw 255] : OsStr) = os s from h)
    rw [osToStr_os] at this
    rw [show osToStr [OsChar.raw 255] = none by decide] at this
    cases this

end Verif.Props
