import Verif.Spec.Program
import Verif.Props.Config
import Verif.Props.Serde
import Verif.Props.Value
import Verif.Props.Merge
/-!
# Whole programs cannot observe the order of a HashMap (C94)
-/
namespace Verif.Props
open Spec

theorem Reordered.refl {v : Value} (h : UniqueKeys v) : Reordered v v := ⟨Same.refl v, h, h⟩
theorem Reordered.symm {v w : Value} (h : Reordered v w) : Reordered w v := ⟨Same.symm h.1, h.2.2, h.2.1⟩
theorem Reordered.trans {u v w : Value} (h : Reordered u v) (h' : Reordered v w) : Reordered u w :=
  ⟨Same.trans h.1 h'.1, h.2.1, h'.2.2⟩

theorem ReorderedLayer.symm {l l' : Layer} (h : ReorderedLayer l l') : ReorderedLayer l' l := by
  cases h with
  | memory h => exact .memory (Reordered.symm h)
  | same h => exact .same h

theorem ReorderedLayer.trans {l l' l'' : Layer} (h : ReorderedLayer l l') (h' : ReorderedLayer l' l'') : ReorderedLayer l l'' := by
  cases h with
  | same _ => exact h'
  | memory h =>
    cases h' with
    | memory h' => exact .memory (Reordered.trans h h')
    | same _ => exact .memory h

theorem ReorderedConfig.symm {c c' : Config} (h : ReorderedConfig c c') : ReorderedConfig c' c := by
  refine ⟨h.1.symm, fun n => ?_⟩
  have := h.2 n
  revert this
  cases hmGet c.layers n <;> cases hmGet c'.layers n <;> intro this <;> cases this
  · exact .none
  · exact .some (ReorderedLayer.symm ‹_›)

theorem ReorderedConfig.trans {c c' c'' : Config} (h : ReorderedConfig c c') (h' : ReorderedConfig c' c'') : ReorderedConfig c c'' := by
  refine ⟨h.1.trans h'.1, fun n => ?_⟩
  have := h.2 n
  have h2 := h'.2 n
  revert this h2
  cases hmGet c.layers n <;> cases hmGet c'.layers n <;> cases hmGet c''.layers n <;> intro this h2 <;> cases this <;> cases h2
  · exact .none
  · exact .some (ReorderedLayer.trans ‹_› ‹_›)

theorem ReorderedAll.symm {σ σ' : Holdings} (h : ReorderedAll σ σ') : ReorderedAll σ' σ :=
  ⟨fun n => Reordered.symm (h.1 n), fun n => ReorderedConfig.symm (h.2 n)⟩
theorem ReorderedAll.trans {σ σ' σ'' : Holdings} (h : ReorderedAll σ σ') (h' : ReorderedAll σ' σ'') : ReorderedAll σ σ'' :=
  ⟨fun n => Reordered.trans (h.1 n) (h'.1 n), fun n => ReorderedConfig.trans (h.2 n) (h'.2 n)⟩

/-! ## Every call respects reordering -/

theorem reordered_kind {v w : Value} (h : Reordered v w) :
    (isScalar v = true ∧ w = v) ∨ (∃ xs ys, v = .array xs ∧ w = .array ys) ∨ ∃ m n, v = .map m ∧ w = .map n := by
  cases hs : isScalar v with
  | true => exact .inl ⟨rfl, same_scalar hs h.1⟩
  | false =>
    cases v with
    | array xs => obtain ⟨ys, e⟩ := same_array_left h.1; exact .inr (.inl ⟨xs, ys, rfl, e⟩)
    | map m => obtain ⟨n, e⟩ := same_map_left h.1; exact .inr (.inr ⟨m, n, rfl, e⟩)
    | _ => cases hs

theorem reordered_get {v w : Value} (h : Reordered v w) (k : String) : Reordered (v.get k) (w.get k) := by
  refine ⟨?_, (C22_unique_keys v .none h.2.1 trivial k 0).2.2.2.2.1, (C22_unique_keys w .none h.2.2 trivial k 0).2.2.2.2.1⟩
  rcases reordered_kind h with ⟨_, rfl⟩ | ⟨xs, ys, rfl, rfl⟩ | ⟨m, n, rfl, rfl⟩
  · exact Same.refl _
  · exact Same.refl _
  · obtain ⟨h1, h2⟩ := same_map.1 h.1 k
    simp only [Value.get]
    cases hm : hmGet m k with
    | none => rw [h1.1 hm]; exact Same.refl _
    | some x =>
      cases hn : hmGet n k with
      | none => rw [h1.2 hn] at hm; cases hm
      | some y => exact h2 x y hm hn

theorem reordered_at {v w : Value} (h : Reordered v w) (i : Nat) : Reordered (v.at' i) (w.at' i) := by
  refine ⟨?_, (C22_unique_keys v .none h.2.1 trivial "" i).2.2.2.2.2.1, (C22_unique_keys w .none h.2.2 trivial "" i).2.2.2.2.2.1⟩
  rcases reordered_kind h with ⟨_, rfl⟩ | ⟨xs, ys, rfl, rfl⟩ | ⟨m, n, rfl, rfl⟩
  · exact Same.refl _
  · obtain ⟨h1, h2⟩ := same_array.1 h.1
    simp only [Value.at']
    cases hx : xs[i]? with
    | none =>
      have : ys[i]? = none := by rw [List.getElem?_eq_none_iff] at hx ⊢; omega
      rw [this]; exact Same.refl _
    | some x =>
      obtain ⟨y, hy⟩ := get_of_lt (show i < ys.length by have := lt_of_get hx; omega)
      rw [hy]; exact h2 i x y hx hy
  · exact Same.refl _

theorem reordered_set {v w x y : Value} (h : Reordered v w) (hx : Reordered x y) (k : String) :
    (v.set k x).1 = (w.set k y).1 ∧ Reordered (v.set k x).2 (w.set k y).2 := by
  have hu := (C22_unique_keys v x h.2.1 hx.2.1 k 0).2.2.2.2.2.2.1
  have hu' := (C22_unique_keys w y h.2.2 hx.2.2 k 0).2.2.2.2.2.2.1
  rcases reordered_kind h with ⟨hs, rfl⟩ | ⟨xs, ys, rfl, rfl⟩ | ⟨m, n, rfl, rfl⟩
  · cases w <;> first | (cases hs; done) | exact ⟨rfl, h⟩
  · exact ⟨rfl, h⟩
  · refine ⟨rfl, ?_, hu, hu'⟩
    show Same (.map (hmInsert m k x)) (.map (hmInsert n k y))
    rw [same_map]
    intro k'
    rw [hmGet_insert, hmGet_insert]
    by_cases hk : k = k'
    · subst hk
      simp only [if_true]
      refine ⟨by simp, ?_⟩
      intro a b ha hb
      cases ha; cases hb; exact hx.1
    · simp only [hk, if_false]
      exact same_map.1 h.1 k'

theorem reordered_push {v w x y : Value} (h : Reordered v w) (hx : Reordered x y) :
    (v.push x).1 = (w.push y).1 ∧ Reordered (v.push x).2 (w.push y).2 := by
  have hu := (C22_unique_keys v x h.2.1 hx.2.1 "" 0).2.2.2.2.2.2.2.1
  have hu' := (C22_unique_keys w y h.2.2 hx.2.2 "" 0).2.2.2.2.2.2.2.1
  rcases reordered_kind h with ⟨hs, rfl⟩ | ⟨xs, ys, rfl, rfl⟩ | ⟨m, n, rfl, rfl⟩
  · cases w <;> first | (cases hs; done) | exact ⟨rfl, h⟩
  · refine ⟨rfl, ?_, hu, hu'⟩
    show Same (.array (xs ++ [x])) (.array (ys ++ [y]))
    obtain ⟨h1, h2⟩ := same_array.1 h.1
    rw [same_array]
    refine ⟨by simp [h1], ?_⟩
    intro i a b ha hb
    by_cases hi : i < xs.length
    · rw [List.getElem?_append_left hi] at ha
      rw [List.getElem?_append_left (by omega)] at hb
      exact h2 i a b ha hb
    · rw [List.getElem?_append_right (by omega)] at ha
      rw [List.getElem?_append_right (by omega), ← h1] at hb
      have h0 : i - xs.length = 0 := by have := lt_of_get ha; simp at this; omega
      rw [h0] at ha hb
      simp at ha hb
      subst ha; subst hb; exact hx.1
  · exact ⟨rfl, h⟩

theorem map_length_same {m n : Entries} (h : Reordered (.map m) (.map n)) : m.length = n.length := by
  have h1 := uniqueKeys_map.1 h.2.1
  have h2 := uniqueKeys_map.1 h.2.2
  have hp : (m.map Prod.fst).Perm (n.map Prod.fst) := by
    rw [List.perm_ext_iff_of_nodup h1.1 h2.1]
    intro k
    rw [← hmGet_isSome_iff, ← hmGet_isSome_iff]
    have := (same_map.1 h.1 k).1
    cases hm : hmGet m k <;> cases hn : hmGet n k <;> simp_all
  simpa using hp.length_eq

theorem reordered_len {v w : Value} (h : Reordered v w) : v.len = w.len := by
  rcases reordered_kind h with ⟨hs, rfl⟩ | ⟨xs, ys, rfl, rfl⟩ | ⟨m, n, rfl, rfl⟩
  · rfl
  · exact (same_array.1 h.1).1
  · exact map_length_same h

theorem reordered_convert {v w : Value} (h : Reordered v w) (s : Scalar) : v.tryInto s = w.tryInto s := by
  rcases reordered_kind h with ⟨hs, rfl⟩ | ⟨xs, ys, rfl, rfl⟩ | ⟨m, n, rfl, rfl⟩
  · rfl
  · cases s with
    | int t => cases t <;> rfl
    | _ => rfl
  · cases s with
    | int t => cases t <;> rfl
    | _ => rfl

theorem holds128_same {v w : Value} (h : Same v w) : Holds128 v ↔ Holds128 w := by
  unfold Holds128
  simp only [h _]

theorem reordered_read {l l' : Layer} (h : ReorderedLayer l l') (w : World) :
    (∃ x y, l.readValue w = .ok x ∧ l'.readValue w = .ok y ∧ Reordered x y) ∨
    ∃ e, l.readValue w = .error e ∧ l'.readValue w = .error e := by
  cases h with
  | memory h => exact .inl ⟨_, _, rfl, rfl, h⟩
  | same hp =>
    cases hr : l.readValue w with
    | ok x => exact .inl ⟨x, x, rfl, rfl, Reordered.refl (hp w x hr)⟩
    | error e => exact .inr ⟨e, rfl, rfl⟩

theorem reordered_buildLoop {c c' : Config} (h : ReorderedConfig c c') (w : World) (skip : Bool) (names : List String) :
    ∀ v v' : Value, Reordered v v' →
    (∃ x y, c.buildLoop w skip v names = .ok x ∧ c'.buildLoop w skip v' names = .ok y ∧ Reordered x y) ∨
    ∃ e, c.buildLoop w skip v names = .error e ∧ c'.buildLoop w skip v' names = .error e := by
  induction names with
  | nil => intro v v' hv; exact .inl ⟨v, v', rfl, rfl, hv⟩
  | cons name names ih =>
    intro v v' hv
    simp only [Config.buildLoop]
    have hl := h.2 name
    revert hl
    cases hmGet c.layers name <;> cases hmGet c'.layers name <;> intro hl <;> cases hl
    · exact ih v v' hv
    · rename_i l l' hl
      rcases reordered_read hl w with ⟨x, y, h1, h2, h3⟩ | ⟨e, h1, h2⟩
      · simp only [h1, h2]
        exact ih _ _ ⟨merge_congr hv.1 h3.1 h3.2.1 h3.2.2, uniqueKeys_merge hv.2.1 h3.2.1, uniqueKeys_merge hv.2.2 h3.2.2⟩
      · simp only [h1, h2]
        cases skip with
        | true => exact ih v v' hv
        | false => exact .inr ⟨e, rfl, rfl⟩

theorem reordered_push_layer {c c' : Config} (h : ReorderedConfig c c') (name : String) {l l' : Layer} (hl : ReorderedLayer l l') :
    ReorderedConfig (c.pushLayer name l) (c'.pushLayer name l') := by
  have hn := h.2 name
  have hs : (hmGet c.layers name).isSome = (hmGet c'.layers name).isSome := by
    revert hn
    cases hmGet c.layers name <;> cases hmGet c'.layers name <;> intro hn <;> cases hn <;> rfl
  unfold Config.pushLayer
  rw [hs]
  cases (hmGet c'.layers name).isSome with
  | true => exact h
  | false =>
    refine ⟨by simp [h.1], fun n => ?_⟩
    simp only [Bool.false_eq_true, if_false, hmGet_insert]
    by_cases hk : name = n
    · simp only [hk, if_true]; exact .some hl
    · simp only [hk, if_false]; exact h.2 n

theorem put_reordered {σ σ' : Holdings} (h : ReorderedAll σ σ') (dst : Nat) {v v' : Value} (hv : Reordered v v') :
    ReorderedAll (σ.put dst v) (σ'.put dst v') := by
  refine ⟨fun n => ?_, h.2⟩
  simp only [Holdings.put]
  by_cases hn : n = dst
  · simp only [hn, if_true]; exact hv
  · simp only [hn, if_false]; exact h.1 n

theorem putCfg_reordered {σ σ' : Holdings} (h : ReorderedAll σ σ') (dst : Nat) {c c' : Config} (hc : ReorderedConfig c c') :
    ReorderedAll (σ.putCfg dst c) (σ'.putCfg dst c') := by
  refine ⟨h.1, fun n => ?_⟩
  simp only [Holdings.putCfg]
  by_cases hn : n = dst
  · simp only [hn, if_true]; exact hc
  · simp only [hn, if_false]; exact h.2 n

theorem proper_builtin_file (path : OsStr) (cd : Codec) : Proper (Layer.newFile (textHandler cd) path) := by
  intro w v h
  simp only [Layer.newFile, Layer.readValue] at h
  split at h
  · exact uniqueKeys_textHandler h
  · cases h; exact uniqueKeys_map.2 ⟨List.nodup_nil, by simp⟩

theorem exec_reordered (b : Build) (fm : Formats) (w : World) {σ σ' : Holdings} (h : ReorderedAll σ σ') (i : Instr) :
    (exec b fm w σ i).1 = (exec b fm w σ' i).1 ∧ ReorderedAll (exec b fm w σ i).2 (exec b fm w σ' i).2 := by
  cases i with
  | new dst => exact ⟨rfl, put_reordered h dst (Reordered.refl trivial)⟩
  | newMap dst => exact ⟨rfl, put_reordered h dst (Reordered.refl (C22_unique_keys .none .none trivial trivial "" 0).2.1)⟩
  | newArray dst => exact ⟨rfl, put_reordered h dst (Reordered.refl (C22_unique_keys .none .none trivial trivial "" 0).2.2.1)⟩
  | fromInt dst t n => exact ⟨rfl, put_reordered h dst (Reordered.refl (by cases t <;> trivial))⟩
  | fromF64 dst x => exact ⟨rfl, put_reordered h dst (Reordered.refl trivial)⟩
  | fromBool dst x => exact ⟨rfl, put_reordered h dst (Reordered.refl trivial)⟩
  | fromText dst x => exact ⟨rfl, put_reordered h dst (Reordered.refl trivial)⟩
  | clone dst src => exact ⟨rfl, put_reordered h dst (h.1 src)⟩
  | get dst src key => exact ⟨rfl, put_reordered h dst (reordered_get (h.1 src) key)⟩
  | at' dst src i => exact ⟨rfl, put_reordered h dst (reordered_at (h.1 src) i)⟩
  | set dst key src =>
    obtain ⟨h1, h2⟩ := reordered_set (h.1 dst) (h.1 src) key
    exact ⟨by simp only [exec, h1], put_reordered h dst h2⟩
  | push dst src =>
    obtain ⟨h1, h2⟩ := reordered_push (h.1 dst) (h.1 src)
    exact ⟨by simp only [exec, h1], put_reordered h dst h2⟩
  | len src => exact ⟨by simp only [exec, reordered_len (h.1 src)], h⟩
  | isMap src => exact ⟨by simp only [exec, same_isMap (h.1 src).1], h⟩
  | isArray src =>
    refine ⟨?_, h⟩
    simp only [exec]
    rcases reordered_kind (h.1 src) with ⟨_, e⟩ | ⟨xs, ys, e1, e2⟩ | ⟨m, n, e1, e2⟩
    · rw [e]
    · rw [e1, e2]; rfl
    · rw [e1, e2]; rfl
  | isNone src =>
    refine ⟨?_, h⟩
    simp only [exec]
    rcases reordered_kind (h.1 src) with ⟨_, e⟩ | ⟨xs, ys, e1, e2⟩ | ⟨m, n, e1, e2⟩
    · rw [e]
    · rw [e1, e2]; rfl
    · rw [e1, e2]; rfl
  | iterNext dst src n =>
    simp only [exec]
    rw [C17_iter (σ.vals src) (n + 1) n (Nat.lt_succ_self n), C17_iter (σ'.vals src) (n + 1) n (Nat.lt_succ_self n)]
    have ha : (σ.vals src).isArray = (σ'.vals src).isArray := by
      rcases reordered_kind (h.1 src) with ⟨_, e⟩ | ⟨xs, ys, e1, e2⟩ | ⟨m, n, e1, e2⟩
      · rw [e]
      · rw [e1, e2]; rfl
      · rw [e1, e2]; rfl
    rw [← ha, ← reordered_len (h.1 src)]
    by_cases hc : (σ.vals src).isArray = true ∧ n < (σ.vals src).len
    · rw [if_pos hc, if_pos hc]
      exact ⟨rfl, put_reordered h dst (reordered_at (h.1 src) n)⟩
    · rw [if_neg hc, if_neg hc]
      exact ⟨rfl, h⟩
  | equal x y =>
    refine ⟨?_, h⟩
    simp only [exec]
    rw [(C21_symm_trans (σ.vals x) (σ.vals y) .none (h.1 x).2.1 (h.1 y).2.1 trivial).2.2 (σ'.vals x) (σ'.vals y) (h.1 x).2.2 (h.1 y).2.2
      (h.1 x).1 (h.1 y).1]
  | merge dst src =>
    exact ⟨rfl, put_reordered h dst ⟨merge_congr (h.1 dst).1 (h.1 src).1 (h.1 src).2.1 (h.1 src).2.2,
      uniqueKeys_merge (h.1 dst).2.1 (h.1 src).2.1, uniqueKeys_merge (h.1 dst).2.2 (h.1 src).2.2⟩⟩
  | cloneMerge dst x y =>
    exact ⟨rfl, put_reordered h dst ⟨merge_congr (h.1 x).1 (h.1 y).1 (h.1 y).2.1 (h.1 y).2.2,
      uniqueKeys_merge (h.1 x).2.1 (h.1 y).2.1, uniqueKeys_merge (h.1 x).2.2 (h.1 y).2.2⟩⟩
  | convert s src =>
    refine ⟨?_, h⟩
    simp only [exec, Value.tryIntoMethod, Value.tryIntoRef, Value.clone]
    rw [reordered_convert (h.1 src) s]
  | convertOr s src d =>
    refine ⟨?_, h⟩
    simp only [exec, Value.intoOr]
    rw [reordered_convert (h.1 src) s]
  | serialize dst src =>
    have h1 := C36_serialize_value (σ.vals src) (h.1 src).2.1
    have h2 := C36_serialize_value (σ'.vals src) (h.1 src).2.2
    simp only [exec]
    by_cases hh : Holds128 (σ.vals src)
    · obtain ⟨m1, e1⟩ := h1.2 hh
      obtain ⟨m2, e2⟩ := h2.2 ((holds128_same (h.1 src).1).1 hh)
      simp only [e1, e2]; exact ⟨trivial, h⟩
    · obtain ⟨x1, e1, s1, u1⟩ := h1.1 hh
      obtain ⟨x2, e2, s2, u2⟩ := h2.1 (fun h' => hh ((holds128_same (h.1 src).1).2 h'))
      simp only [e1, e2]
      exact ⟨trivial, put_reordered h dst ⟨Same.trans (Same.trans s1 (h.1 src).1) (Same.symm s2), u1, u2⟩⟩
  | deserialize dst src =>
    simp only [exec, deValue_ok _ (h.1 src).2.1, deValue_ok _ (h.1 src).2.2]
    exact ⟨trivial, put_reordered h dst (h.1 src)⟩
  | typed src structs k T hs hT =>
    obtain ⟨h1, h2⟩ := C44_order_independent structs (fun n => (hs n).1) T hT.1 k (σ.vals src) (σ'.vals src) (h.1 src).2.1 (h.1 src).2.2
      (h.1 src).1 (C44_string_keys_never_clash structs (fun n => (hs n).2) T hT.2 _)
    simp only [exec]
    cases e1 : deAt structs k T (σ.vals src) with
    | ok d =>
      obtain ⟨d', e2⟩ := h1.1 ⟨d, e1⟩
      simp only [e2]
      exact ⟨congrArg Told.data (funext (h2 d d' e1 e2)), h⟩
    | err m =>
      cases e2 : deAt structs k T (σ'.vals src) with
      | ok d => obtain ⟨_, e⟩ := h1.2 ⟨d, e2⟩; rw [e1] at e; cases e
      | err m' => exact ⟨rfl, h⟩
      | panic => exact ⟨rfl, h⟩
    | panic =>
      cases e2 : deAt structs k T (σ'.vals src) with
      | ok d => obtain ⟨_, e⟩ := h1.2 ⟨d, e2⟩; rw [e1] at e; cases e
      | err m' => exact ⟨rfl, h⟩
      | panic => exact ⟨rfl, h⟩
  | newConfig c => exact ⟨rfl, putCfg_reordered h c ⟨rfl, fun n => .none⟩⟩
  | addMemory c name src => exact ⟨rfl, putCfg_reordered h c (reordered_push_layer (h.2 c) name (.memory (h.1 src)))⟩
  | addEnvironment c name pre =>
    exact ⟨rfl, putCfg_reordered h c (reordered_push_layer (h.2 c) name (.same fun w v hv => uniqueKeys_readEnv hv))⟩
  | addFile c name path =>
    have : ∀ x y : Except BakuninError Unit × Config, x.1 = y.1 → ReorderedConfig x.2 y.2 →
        (match x.1 with | .ok () => Told.nothing | .error e => .error e) = (match y.1 with | .ok () => Told.nothing | .error e => .error e) ∧
        ReorderedAll (σ.putCfg c x.2) (σ'.putCfg c y.2) := by
      intro x y h1 h2
      exact ⟨by rw [h1], putCfg_reordered h c h2⟩
    apply this
    · simp only [Config.addFileLayer]; split
      · rfl
      · split <;> rfl
    · simp only [Config.addFileLayer]; split
      · exact reordered_push_layer (h.2 c) name (.same (proper_builtin_file path _))
      · split
        · exact reordered_push_layer (h.2 c) name (.same (proper_builtin_file path _))
        · exact h.2 c
  | addUser c name l hl => exact ⟨rfl, putCfg_reordered h c (reordered_push_layer (h.2 c) name (.same hl))⟩
  | layerName c name =>
    refine ⟨?_, h⟩
    simp only [exec, Config.getLayer]
    have := (h.2 c).2 name
    revert this
    cases hmGet (σ.cfgs c).layers name <;> cases hmGet (σ'.cfgs c).layers name <;> intro this <;> cases this
    · rfl
    · rename_i h'; cases h' <;> rfl
  | readLayer dst c name =>
    simp only [exec, Config.getLayer]
    have := (h.2 c).2 name
    revert this
    cases hmGet (σ.cfgs c).layers name <;> cases hmGet (σ'.cfgs c).layers name <;> intro this <;> cases this
    · exact ⟨rfl, h⟩
    · rename_i l l' h'
      rcases reordered_read h' w with ⟨x, y, h1, h2, h3⟩ | ⟨e, h1, h2⟩
      · simp only [h1, h2]; exact ⟨trivial, put_reordered h dst h3⟩
      · simp only [h1, h2]; exact ⟨trivial, h⟩
  | build dst c skip =>
    simp only [exec, Config.buildValue]
    have hm : Reordered Value.newMap Value.newMap := Reordered.refl (C22_unique_keys .none .none trivial trivial "" 0).2.1
    have := reordered_buildLoop (h.2 c) w skip (σ.cfgs c).names _ _ hm
    rw [← (h.2 c).1]
    rcases this with ⟨x, y, h1, h2, h3⟩ | ⟨e, h1, h2⟩
    · simp only [h1, h2]; exact ⟨trivial, put_reordered h dst h3⟩
    · simp only [h1, h2]; exact ⟨trivial, h⟩

theorem run_extends {b : Build} {fm : Formats} {w : World} {p : Program} {t t' : List Told} {σ σ' : Holdings}
    (h : Run b fm w p t σ t' σ') : t <:+ t' := by
  induction h with
  | here => exact List.suffix_refl _
  | step _ _ _ ih => exact (List.suffix_cons _ _).trans ih

/-- **C94.** Two runs of one program, from the same holdings, with all maps reordered differently all the time: as long as both go, they are told the
same, make the same calls, and hold the same. -/
theorem C94_hash_order (b : Build) (fm : Formats) (w : World) (p : Program) (t t₁ t₂ : List Told) (σ σ' σ₁ σ₂ : Holdings)
    (h0 : ReorderedAll σ σ') (h1 : Run b fm w p t σ t₁ σ₁) (h2 : Run b fm w p t σ' t₂ σ₂) :
    (t₁ <:+ t₂ ∨ t₂ <:+ t₁) ∧ (t₁.length = t₂.length → t₁ = t₂ ∧ ReorderedAll σ₁ σ₂) := by
  induction h1 generalizing σ' with
  | here h =>
    have hx := run_extends h2
    refine ⟨.inl hx, fun hl => ⟨hx.eq_of_length hl, ?_⟩⟩
    cases h2 with
    | here h' => exact ReorderedAll.trans (ReorderedAll.symm h) (ReorderedAll.trans h0 h')
    | step _ _ h' =>
      have := (run_extends h').length_le
      simp at this; omega
  | step hi hr h ih =>
    cases h2 with
    | here h' =>
      have hx := (List.suffix_cons _ _).trans (run_extends h)
      refine ⟨.inr hx, fun hl => ?_⟩
      have := (run_extends h).length_le
      simp at this; omega
    | step hi' hr' h' =>
      rw [hi] at hi'; cases hi'
      obtain ⟨e1, e2⟩ := exec_reordered b fm w (ReorderedAll.trans (ReorderedAll.symm hr) (ReorderedAll.trans h0 hr')) _
      rw [← e1] at h'
      exact ih _ e2 h'

/-! ## What does depend on the order -/

theorem displayElems_congr {xs ys : List Value} (h : List.Forall₂ (fun x y => x.display = y.display) xs ys) :
    ∀ first, displayElems first xs = displayElems first ys := by
  induction h with
  | nil => intro first; rfl
  | cons h1 _ ih => intro first; simp only [displayElems, h1, ih]

/-- **C94.** The text of a value does not depend on the order as long as no map inside has two entries. -/
theorem C94_display (v w : Value) (h : Reordered v w) (h1 : OneEntryMaps v) : v.display = w.display := by
  induction h1 generalizing w with
  | @scalar v ha hm =>
    rcases reordered_kind h with ⟨_, rfl⟩ | ⟨xs, ys, e, _⟩ | ⟨m, n, e, _⟩
    · rfl
    · exact absurd e (ha xs)
    · exact absurd e (hm m)
  | @array xs hx ih =>
    obtain ⟨ys, rfl⟩ := same_array_left h.1
    obtain ⟨h2, h3⟩ := same_array.1 h.1
    have hu := uniqueKeys_array.1 h.2.1
    have hu' := uniqueKeys_array.1 h.2.2
    simp only [Value.display]
    rw [displayElems_congr (forall2_of_index h2 ?_)]
    intro i a b ha hb
    exact ih a (List.mem_of_getElem? ha) b ⟨h3 i a b ha hb, hu a (List.mem_of_getElem? ha), hu' b (List.mem_of_getElem? hb)⟩
  | empty =>
    obtain ⟨n, rfl⟩ := same_map_left h.1
    have := map_length_same h
    cases n with
    | nil => rfl
    | cons => simp at this
  | @single k x hx ih =>
    obtain ⟨n, rfl⟩ := same_map_left h.1
    have hl := map_length_same h
    obtain ⟨⟨k', y⟩, rfl⟩ := List.length_eq_one_iff.1 (hl.symm.trans rfl)
    obtain ⟨h2, h3⟩ := same_map.1 h.1 k
    have hk : k' = k := by
      by_contra hk
      rw [show hmGet [(k', y)] k = none by simp [hmGet, hk]] at h2
      simp [hmGet] at h2
    subst hk
    have := ih y ⟨h3 x y (by simp [hmGet]) (by simp [hmGet]), (uniqueKeys_map.1 h.2.1).2 _ List.mem_cons_self,
      (uniqueKeys_map.1 h.2.2).2 _ List.mem_cons_self⟩
    simp only [Value.display, displayEntries, displayEntry, this]

/-- Two orders of the map `{a: "x", b: none}`. -/
theorem exOrders : Reordered (.map [("a", .string "x"), ("b", .none)]) (.map [("b", .none), ("a", .string "x")]) := by
  refine ⟨?_, by simp [UniqueKeys, UniqueKeysMap, UniqueKeysEntry], by simp [UniqueKeys, UniqueKeysMap, UniqueKeysEntry]⟩
  rw [same_map]
  intro k
  simp only [hmGet]
  by_cases h1 : "a" = k
  · subst h1; simp; exact fun _ => rfl
  · by_cases h2 : "b" = k
    · subst h2; simp; exact fun _ => rfl
    · simp [h1, h2]

/-- **C94.** With two entries it does: `{a: x, b: none}` or `{b: none, a: x}`. -/
theorem C94_display_order : ∃ v w, Reordered v w ∧ v.display ≠ w.display :=
  ⟨_, _, exOrders, by decide⟩

/-- **C94.** Which of two errors a failing deserialization reports depends on the order, and so does even whether it fails with an error or a
panic (here a struct with a boolean `a`, given as the text `x`, and `b` that is either a boolean or an enum). -/
theorem C94_error_order : ∃ v w, Reordered v w ∧
    (∃ e e', deAt (fun _ => []) 1 (.struct [("a", .bool), ("b", .bool)]) v = .err e ∧
      deAt (fun _ => []) 1 (.struct [("a", .bool), ("b", .bool)]) w = .err e' ∧ e ≠ e') ∧
    ∃ e, deAt (fun _ => []) 1 (.struct [("a", .bool), ("b", .enum)]) v = .err e ∧
      deAt (fun _ => []) 1 (.struct [("a", .bool), ("b", .enum)]) w = .panic :=
  ⟨_, _, exOrders, ⟨_, _, rfl, rfl, by decide⟩, _, rfl, rfl⟩

/-! ## A program at work -/

/-- A program that puts a map into a configuration, builds it, asks for the length and reads a field. -/
def exProgram : Program := fun t =>
  match t.length with
  | 0 => some (.newConfig 0)
  | 1 => some (.addMemory 0 "defaults" 0)
  | 2 => some (.build 1 0 false)
  | 3 => some (.len 1)
  | 4 => some (.get 2 1 "a")
  | 5 => some (.convert .string 2)
  | _ => none

/-- What it holds at the start, with the map in one order or the other. -/
def exHold (m : Entries) : Holdings := ⟨fun n => if n = 0 then .map m else .none, fun _ => Config.new⟩

theorem exHold_reordered {m n : Entries} (h : Reordered (.map m) (.map n)) : ReorderedAll (exHold m) (exHold n) := by
  refine ⟨fun i => ?_, fun _ => ⟨rfl, fun _ => .none⟩⟩
  simp only [exHold]
  by_cases hi : i = 0
  · simp only [hi, if_true]; exact h
  · simp only [hi, if_false]; exact Reordered.refl trivial

/-- `n` calls without any reordering. -/
def plainSteps (b : Build) (fm : Formats) (w : World) (p : Program) : Nat → List Told × Holdings → List Told × Holdings
  | 0, s => s
  | n + 1, s => match p s.1 with
    | none => s
    | some i => plainSteps b fm w p n ((exec b fm w s.2 i).1 :: s.1, (exec b fm w s.2 i).2)

theorem run_plainSteps (b : Build) (fm : Formats) (w : World) (p : Program) (n : Nat) : ∀ (t : List Told) (σ : Holdings), ReorderedAll σ σ →
    Run b fm w p t σ (plainSteps b fm w p n (t, σ)).1 (plainSteps b fm w p n (t, σ)).2 := by
  induction n with
  | zero => intro t σ h; exact .here h
  | succ n ih =>
    intro t σ h
    simp only [plainSteps]
    cases hp : p t with
    | none => exact .here h
    | some i => exact .step hp h (ih _ _ (exec_reordered b fm w h i).2)

/-- **C94.** A run never gets stuck: from any holdings it can be continued for any number of calls, unless the program stops. -/
theorem C94_goes_on (b : Build) (fm : Formats) (w : World) (p : Program) (n : Nat) (t : List Told) (σ σ' : Holdings) (h : ReorderedAll σ σ') :
    ∃ t' σ'', Run b fm w p t σ t' σ'' ∧ (t'.length = t.length + n ∨ p t' = none) := by
  have h' : ReorderedAll σ σ := ReorderedAll.trans h (ReorderedAll.symm h)
  refine ⟨_, _, run_plainSteps b fm w p n t σ h', ?_⟩
  clear h h'
  induction n generalizing t σ with
  | zero => exact .inl rfl
  | succ n ih =>
    simp only [plainSteps]
    cases hp : p t with
    | none => exact .inr hp
    | some i =>
      rcases ih ((exec b fm w σ i).1 :: t) (exec b fm w σ i).2 with h | h
      · exact .inl (by rw [h]; simp; omega)
      · exact .inr h

example (b : Build) (fm : Formats) (w : World) :
    ∃ t₁ σ₁ t₂ σ₂, Run b fm w exProgram [] (exHold [("a", .string "x"), ("b", .none)]) t₁ σ₁ ∧
      Run b fm w exProgram [] (exHold [("b", .none), ("a", .string "x")]) t₂ σ₂ ∧
      t₁ = t₂ ∧ t₁ = [.scalar .string "x", .nothing, .number 2, .nothing, .nothing, .nothing] ∧ σ₁.vals 1 ≠ σ₂.vals 1 :=
  ⟨_, _, _, _, run_plainSteps b fm w exProgram 6 _ _ (exHold_reordered (Reordered.refl exOrders.2.1)),
    run_plainSteps b fm w exProgram 6 _ _ (exHold_reordered (Reordered.refl exOrders.2.2)), rfl, rfl, by
    intro h
    have h' : (Value.map [("a", .string "x"), ("b", .none)]) = .map [("b", .none), ("a", .string "x")] := h
    simp at h'⟩

/-- By the theorem, whatever hash orders the two runs meet: six calls were told the same. -/
example (b : Build) (fm : Formats) (w : World) (t₁ t₂ : List Told) (σ₁ σ₂ : Holdings)
    (h1 : Run b fm w exProgram [] (exHold [("a", .string "x"), ("b", .none)]) t₁ σ₁)
    (h2 : Run b fm w exProgram [] (exHold [("b", .none), ("a", .string "x")]) t₂ σ₂) (h : t₁.length = t₂.length) : t₁ = t₂ :=
  ((C94_hash_order b fm w exProgram [] t₁ t₂ _ _ σ₁ σ₂ (exHold_reordered exOrders) h1 h2).2 h).1
/-- Maps with one entry each, inside lists. -/
example (w : Value) (h : Reordered (.array [.map [("a", .string "x")], .map [("b", .none)]]) w) :
    Value.display (.array [.map [("a", .string "x")], .map [("b", .none)]]) = w.display :=
  C94_display _ w h (.array (by
    intro x hx
    simp only [List.mem_cons, List.not_mem_nil, or_false] at hx
    rcases hx with rfl | rfl
    · exact .single (.scalar (by simp) (by simp))
    · exact .single (.scalar (by simp) (by simp))))

end Verif.Props
