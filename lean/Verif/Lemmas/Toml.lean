import Verif.Lemmas.Alike
import Verif.Lemmas.SerdeTyped
import Verif.Spec.Toml
/-! # Values without their `None` entries -/
namespace Verif
open Spec Props

/-- Is it `None`? -/
def isNoneB : Value → Bool
  | .none => true
  | _ => false

theorem isNoneB_iff {v : Value} : isNoneB v = true ↔ v = .none := by cases v <;> simp [isNoneB]

/-- The predicate on paths, seen from one step further down. -/
abbrev below (f : Path → Bool) (s : Step) : Path → Bool := fun p => f (s :: p)

mutual
/-- The value without those map entries that are `None` and whose path is as described by `f`. -/
def pruneBy (f : Path → Bool) (v : Value) : Value :=
  match v with
  | .none => .none
  | .boolean b => .boolean b
  | .integer n => .integer n
  | .longInteger n => .longInteger n
  | .uInteger n => .uInteger n
  | .uLongInteger n => .uLongInteger n
  | .float x => .float x
  | .string s => .string s
  | .array xs => .array (pruneList f 0 xs)
  | .map m => .map (pruneMap f m)
  termination_by structural v
def pruneList (f : Path → Bool) (i : Nat) (xs : List Value) : List Value :=
  match xs with
  | [] => []
  | x :: r => pruneBy (below f (.idx i)) x :: pruneList f (i + 1) r
  termination_by structural xs
def pruneMap (f : Path → Bool) (m : List (String × Value)) : List (String × Value) :=
  match m with
  | [] => []
  | e :: r => pruneEntry f e ++ pruneMap f r
  termination_by structural m
def pruneEntry (f : Path → Bool) (e : String × Value) : List (String × Value) :=
  match e with
  | (k, v) => if isNoneB v && f [.key k] then [] else [(k, pruneBy (below f (.key k)) v)]
  termination_by structural e
end

/-- The value without the map entries that are `None`. -/
def prune (v : Value) : Value := pruneBy (fun _ => true) v

theorem pruneList_get (f : Path → Bool) (xs : List Value) : ∀ (i j : Nat),
    (pruneList f i xs)[j]? = (xs[j]?).map (pruneBy (below f (.idx (i + j)))) := by
  induction xs with
  | nil => intro i j; rw [pruneList]; simp
  | cons x r ih =>
    intro i j
    rw [pruneList]
    cases j with
    | zero => simp
    | succ j =>
      simp only [List.getElem?_cons_succ]
      rw [ih (i + 1) j, show i + 1 + j = i + (j + 1) from by omega]

theorem pruneList_length (f : Path → Bool) (xs : List Value) : ∀ i, (pruneList f i xs).length = xs.length := by
  induction xs with
  | nil => intro i; rw [pruneList]
  | cons x r ih => intro i; rw [pruneList]; simp [ih]

theorem pruneMap_eq (f : Path → Bool) (m : Entries) : pruneMap f m =
    (m.filter (fun e => !(isNoneB e.2 && f [.key e.1]))).map (fun e => (e.1, pruneBy (below f (.key e.1)) e.2)) := by
  induction m with
  | nil => rw [pruneMap]; rfl
  | cons e r ih =>
    obtain ⟨k, v⟩ := e
    rw [pruneMap, pruneEntry, ih]
    by_cases h : (isNoneB v && f [.key k]) = true
    · rw [if_pos h, List.filter_cons_of_neg (by simp only [h]; decide)]; rfl
    · rw [if_neg h, List.filter_cons_of_pos (by simp only [h]; decide)]; rfl

theorem prune_cases (v : Value) : (∃ xs, v = .array xs) ∨ (∃ m, v = .map m) ∨ ((∀ f, pruneBy f v = v) ∧ ∀ s, child v s = none) := by
  cases v with
  | array xs => exact Or.inl ⟨xs, rfl⟩
  | map m => exact Or.inr (Or.inl ⟨m, rfl⟩)
  | _ => exact Or.inr (Or.inr ⟨by intro f; rw [pruneBy], by rintro (_ | _) <;> rfl⟩)

theorem head_prune (f : Path → Bool) (v : Value) : head (pruneBy f v) = head v := by
  cases v <;> rw [pruneBy] <;> simp [head, pruneList_length]

theorem hmGet_pruneMap (f : Path → Bool) {m : Entries} (hn : (m.map Prod.fst).Nodup) (k : String) :
    hmGet (pruneMap f m) k =
      (hmGet m k).bind (fun x => if isNoneB x && f [.key k] then none else some (pruneBy (below f (.key k)) x)) := by
  induction m with
  | nil => rw [pruneMap]; rfl
  | cons e r ih =>
    obtain ⟨k', v⟩ := e
    rw [List.map_cons, List.nodup_cons] at hn
    rw [pruneMap, pruneEntry, hmGet_cons]
    by_cases hk : k' = k
    · subst hk
      simp only [if_true, beq_self_eq_true, Option.bind_some]
      by_cases h : (isNoneB v && f [.key k']) = true
      · simp only [h, if_true, List.nil_append]
        rw [ih hn.2, hmGet_eq_none.2 hn.1]; rfl
      · simp only [h, Bool.false_eq_true, if_false, List.cons_append, List.nil_append]
        rw [hmGet_cons]; simp
    · by_cases h : (isNoneB v && f [.key k']) = true
      · simp only [h, if_true, List.nil_append, ih hn.2]
        simp [hk]
      · simp only [h, Bool.false_eq_true, if_false, List.cons_append, List.nil_append]
        rw [hmGet_cons]; simp [hk, ih hn.2]

theorem child_prune_idx (f : Path → Bool) (v : Value) (i : Nat) :
    child (pruneBy f v) (.idx i) = (child v (.idx i)).map (pruneBy (below f (.idx i))) := by
  rcases prune_cases v with ⟨xs, rfl⟩ | ⟨m, rfl⟩ | ⟨h1, h2⟩
  · rw [pruneBy]
    show (pruneList f 0 xs)[i]? = (xs[i]?).map _
    rw [pruneList_get, Nat.zero_add]
  · rw [pruneBy]; rfl
  · rw [h1, h2]; rfl

theorem child_prune_key (f : Path → Bool) {v : Value} (hu : UniqueKeys v) (k : String) :
    child (pruneBy f v) (.key k) =
      (child v (.key k)).bind (fun x => if isNoneB x && f [.key k] then none else some (pruneBy (below f (.key k)) x)) := by
  rcases prune_cases v with ⟨xs, rfl⟩ | ⟨m, rfl⟩ | ⟨h1, h2⟩
  · rw [pruneBy]; rfl
  · rw [pruneBy, child_key_map, child_key_map, hmGet_pruneMap f (uniqueKeys_map.1 hu).1]
  · rw [h1, h2]; rfl

theorem uniqueKeys_pruneBy (v : Value) : ∀ f, UniqueKeys v → UniqueKeys (pruneBy f v) := by
  induction v using Value.ind with
  | array xs ih =>
    intro f
    rw [pruneBy, uniqueKeys_array, uniqueKeys_array]
    intro h y hy
    obtain ⟨j, hj⟩ := List.getElem?_of_mem hy
    rw [pruneList_get, Option.map_eq_some_iff] at hj
    obtain ⟨x, hx, rfl⟩ := hj
    have hx := List.mem_of_getElem? hx
    exact ih x hx _ (h x hx)
  | map m ih =>
    intro f
    rw [pruneBy, pruneMap_eq, uniqueKeys_map, uniqueKeys_map]
    rintro ⟨h1, h2⟩
    refine ⟨?_, ?_⟩
    · rw [List.map_map]
      exact h1.sublist ((List.filter_sublist (l := m)).map Prod.fst)
    · intro e he
      obtain ⟨x, hx, rfl⟩ := List.mem_map.1 he
      have hx := List.mem_of_mem_filter hx
      exact ih x hx _ (h2 x hx)
  | _ => intro f _; rw [pruneBy]; trivial

theorem uniqueKeys_prune (v : Value) : UniqueKeys v → UniqueKeys (prune v) := uniqueKeys_pruneBy v _

theorem uniqueKeys_child {v x : Value} {s : Step} (hu : UniqueKeys v) (h : child v s = some x) : UniqueKeys x := by
  cases s with
  | idx i =>
    cases v <;> simp only [child, reduceCtorEq] at h
    exact uniqueKeys_array.1 hu x (List.mem_of_getElem? h)
  | key k =>
    cases v <;> first | (simp [child] at h; done) | skip
    rw [child_key_map] at h
    exact (uniqueKeys_map.1 hu).2 _ (hmGet_mem h)

theorem nullEntry_nil (v : Value) : ¬ NullEntry v [] := by
  rintro ⟨⟨q, k, h⟩, -⟩; simp at h

theorem head_none_iff {v : Value} : head v = .none ↔ v = .none := by cases v <;> simp [head]

theorem nullEntry_cons (v : Value) (s : Step) (p : Path) : NullEntry v (s :: p) ↔
    (∃ k, s = .key k ∧ p = [] ∧ child v s = some .none) ∨ ∃ x, child v s = some x ∧ NullEntry x p := by
  constructor
  · rintro ⟨⟨q, k, h⟩, h2⟩
    rw [view_cons] at h2
    obtain ⟨x, hx, h3⟩ := Option.bind_eq_some_iff.1 h2
    clear h2
    cases q with
    | nil =>
      simp only [List.nil_append, List.cons.injEq] at h
      obtain ⟨rfl, rfl⟩ := h
      rw [view_nil, Option.some.injEq, head_none_iff] at h3
      subst h3
      exact Or.inl ⟨k, rfl, rfl, hx⟩
    | cons s' q =>
      simp only [List.cons_append, List.cons.injEq] at h
      exact Or.inr ⟨x, hx, ⟨q, k, h.2⟩, h3⟩
  · rintro (⟨k, rfl, rfl, h⟩ | ⟨x, hx, ⟨q, k, rfl⟩, h⟩)
    · exact ⟨⟨[], k, rfl⟩, by rw [view_cons, h]; rfl⟩
    · exact ⟨⟨s :: q, k, rfl⟩, by rw [view_cons, hx]; exact h⟩

theorem omitting_pruneBy : ∀ (p : Path) (f : Path → Bool) (v : Value), UniqueKeys v →
    (NullEntry v p → f p = true → view (pruneBy f v) p = none) ∧
    (¬ (NullEntry v p ∧ f p = true) → view (pruneBy f v) p = view v p) := by
  intro p
  induction p with
  | nil =>
    intro f v _
    exact ⟨fun h => (nullEntry_nil v h).elim, fun _ => by rw [view_nil, view_nil, head_prune]⟩
  | cons s p ih =>
    intro f v hu
    rw [nullEntry_cons, view_cons, view_cons]
    cases hc : child v s with
    | none =>
      have : child (pruneBy f v) s = none := by
        cases s with
        | idx i => rw [child_prune_idx, hc]; rfl
        | key k => rw [child_prune_key f hu, hc]; rfl
      rw [this]; simp
    | some x =>
      have hux := uniqueKeys_child hu hc
      by_cases hx : x = .none ∧ ∃ k, s = .key k ∧ f [.key k] = true
      · obtain ⟨rfl, k, rfl, hf⟩ := hx
        have : child (pruneBy f v) (.key k) = none := by rw [child_prune_key f hu, hc]; simp [isNoneB, hf]
        rw [this]
        refine ⟨fun _ _ => rfl, fun h => ?_⟩
        cases p with
        | nil => exact absurd ⟨Or.inl ⟨k, rfl, rfl, rfl⟩, hf⟩ h
        | cons s' p => cases s' <;> rfl
      · have : child (pruneBy f v) s = some (pruneBy (below f s) x) := by
          cases s with
          | idx i => rw [child_prune_idx, hc]; rfl
          | key k =>
            have h0 : ¬ (isNoneB x && f [.key k]) = true := by
              intro h
              rw [Bool.and_eq_true] at h
              exact hx ⟨isNoneB_iff.1 h.1, k, rfl, h.2⟩
            rw [child_prune_key f hu, hc]; simp only [Option.bind_some, h0, Bool.false_eq_true, if_false]
        rw [this]
        simp only [Option.bind_some, Option.some.injEq, exists_eq_left']
        obtain ⟨i1, i2⟩ := ih (below f s) x hux
        constructor
        · rintro (⟨k, rfl, rfl, h⟩ | h) hf
          · exact absurd ⟨h, k, rfl, hf⟩ hx
          · exact i1 h hf
        · intro h
          exact i2 (fun h' => h ⟨Or.inr h'.1, h'.2⟩)

theorem omitting_prune' {v : Value} (hu : UniqueKeys v) : Omitting v (prune v) := fun p =>
  ⟨fun h => (omitting_pruneBy p _ v hu).1 h rfl, fun h => (omitting_pruneBy p _ v hu).2 (fun h' => h h'.1)⟩

theorem same_of_omitting {v s s' : Value} (h : Omitting v s) (h' : Omitting v s') : Same s s' := by
  intro p
  by_cases hn : NullEntry v p
  · rw [(h p).1 hn, (h' p).1 hn]
  · rw [(h p).2 hn, (h' p).2 hn]

theorem alikeOmitting_of {v s r : Value} (h : Omitting v s) (ha : Alike s r) : AlikeOmitting v r := by
  intro p
  refine ⟨fun hn => (alike_none ha p).1 ((h p).1 hn), fun hn => ?_⟩
  rw [← (h p).2 hn]; exact ha p

/-! ## Deserialization -/

/-- No value of the type is read from `None`. -/
def RejectsNone (dec : Decoder) : Prop := ∀ d, dec .none ≠ .ok d

theorem de_none {refs : Nat → Decoder} (hr : ∀ n, RejectsNone (refs n)) : ∀ {t : Ty}, OmitsNone t → Nullable t = false →
    RejectsNone (de refs t) := by
  intro t ho
  induction ho with
  | leaf ht =>
    intro hn d h
    simp only [List.mem_cons, List.not_mem_nil, or_false] at ht
    rcases ht with rfl | rfl | rfl | rfl | rfl | rfl | rfl
    · rw [de] at h; cases h
    · rw [de] at h; cases h
    · rw [de] at h; cases h
    · rw [de] at h; cases h
    · rw [de] at h; cases h
    · cases hn
    · cases hn
  | int t => intro _ d h; rw [de] at h; cases t <;> cases h
  | option => intro hn; cases hn
  | newtype _ ih =>
    intro hn d h
    rw [de, bind_eq_ok] at h
    obtain ⟨x, h, -⟩ := h
    exact ih (by simpa only [Nullable] using hn) x h
  | seq => intro _ d h; simp [de] at h
  | tuple => intro _ d h; simp [de] at h
  | tupleStruct => intro _ d h; simp [de] at h
  | map => intro _ d h; simp [de] at h
  | struct => intro _ d h; simp [de, deStruct] at h
  | ref n => intro _ d h; rw [de] at h; exact hr n d h

/-- The decoder reads the same from the value without its `None` entries. -/
def PruneFree (dec : Decoder) : Prop := ∀ f v d, UniqueKeys v → dec v = .ok d → dec (pruneBy f v) = .ok d

theorem tryInto_prune (f : Path → Bool) (v : Value) (s : Scalar) : (pruneBy f v).tryInto s = v.tryInto s ∨ ∀ x, v.tryInto s ≠ .ok x := by
  rcases prune_cases v with ⟨xs, rfl⟩ | ⟨m, rfl⟩ | ⟨h1, h2⟩
  · right; intro x h; rw [C31_containers_never_convert s (.array xs) _ rfl] at h; cases h
  · right; intro x h; rw [C31_containers_never_convert s (.map m) _ rfl] at h; cases h
  · rw [h1]; exact Or.inl rfl

theorem de_prune {refs : Nat → Decoder} (hr : ∀ n, RejectsNone (refs n)) (hp : ∀ n, PruneFree (refs n)) {t : Ty} (ht : OmitsNone t)
    (hw : WellFormed t) : PruneFree (de refs t) := by
  have sc : ∀ (s : Scalar) (g : s.T → Data) f v d, (Outcome.ofExcept (Value.tryInto s v) >>= fun a => Outcome.ok (g a)) = .ok d →
      (Outcome.ofExcept ((pruneBy f v).tryInto s) >>= fun a => Outcome.ok (g a)) = .ok d := by
    intro s g f v d h
    rcases tryInto_prune f v s with h' | h'
    · rw [h']; exact h
    · rw [bind_eq_ok] at h
      obtain ⟨a, h, -⟩ := h
      rw [ofExcept_ok] at h
      exact absurd h (h' a)
  have leafy : ∀ (t : Ty) f v d, (∀ w : Value, w ≠ .none → ∃ e, de refs t w = .err e) → de refs t v = .ok d → de refs t (pruneBy f v) = .ok d := by
    intro t f v d e h
    by_cases hv : v = .none
    · subst hv; rw [pruneBy]; exact h
    · obtain ⟨_, e1⟩ := e v hv
      rw [e1] at h; cases h
  have arr : ∀ (t : Ty) (v : Value) (d : Data), (∀ w : Value, (∀ xs, w ≠ .array xs) → ∃ e, de refs t w = .err e) →
      de refs t v = .ok d → ∃ xs, v = .array xs := by
    intro t v d e h
    by_contra hx
    push Not at hx
    obtain ⟨_, e1⟩ := e v hx
    rw [e1] at h; cases h
  have mp : ∀ (t : Ty) (v : Value) (d : Data), (∀ w : Value, (∀ xs, w ≠ .map xs) → ∃ e, de refs t w = .err e) →
      de refs t v = .ok d → ∃ xs, v = .map xs := by
    intro t v d e h
    by_contra hx
    push Not at hx
    obtain ⟨_, e1⟩ := e v hx
    rw [e1] at h; cases h
  induction ht with
  | leaf ht =>
    simp only [List.mem_cons, List.not_mem_nil, or_false] at ht
    intro f v d _
    rcases ht with rfl | rfl | rfl | rfl | rfl | rfl | rfl
    · rw [de, de]; exact sc .bool _ f v d
    · rw [de, de]; exact sc .f64 _ f v d
    · rw [de, de]; exact sc .f64 _ f v d
    · rw [de, de]; exact sc .char _ f v d
    · rw [de, de]; exact sc .string _ f v d
    · exact leafy _ f v d (fun w hw => by cases w <;> first | exact absurd rfl hw | simp [de])
    · exact leafy _ f v d (fun w hw => by cases w <;> first | exact absurd rfl hw | simp [de])
  | int t =>
    intro f v d _
    rw [de, de]
    by_cases hu : Upto64 t
    · rw [deInt_eq hu, deInt_eq hu]; exact sc (.int t) _ f v d
    · have : t = .i128 ∨ t = .u128 := by
        by_contra h
        rw [not_or] at h
        exact hu h
      rcases this with rfl | rfl <;> exact id
  | @option t _ ih =>
    cases hw with
    | option hw =>
      intro f v d hu h
      by_cases hv : v = .none
      · subst hv; rw [pruneBy]; exact h
      · have e : ∀ w : Value, w ≠ .none → de refs (.option t) w = (de refs t w >>= fun d => .ok (.some d)) := by
          intro w hw; cases w <;> first | exact absurd rfl hw | simp [de]
        have hv' : pruneBy f v ≠ .none := by
          intro hh
          have := head_prune f v
          rw [hh] at this
          exact hv (head_none_iff.1 this.symm)
        rw [e v hv, bind_eq_ok] at h
        obtain ⟨x, h1, h2⟩ := h
        rw [e _ hv', bind_eq_ok]
        exact ⟨x, ih hw f v x hu h1, h2⟩
  | newtype _ ih =>
    cases hw with
    | newtype hw =>
      intro f v d hu h
      rw [de, bind_eq_ok] at h ⊢
      obtain ⟨x, h1, h2⟩ := h
      exact ⟨x, ih hw f v x hu h1, h2⟩
  | seq _ ih =>
    cases hw with
    | seq hw =>
      intro f v d hu h
      obtain ⟨xs, rfl⟩ := arr _ v d (fun w hw => by cases w <;> first | exact absurd rfl (hw _) | simp [de]) h
      rw [pruneBy]
      rw [de_seq_ok] at h ⊢
      obtain ⟨ds, rfl, hl, h⟩ := h
      refine ⟨ds, rfl, by rw [pruneList_length]; exact hl, fun i x y hx hy => ?_⟩
      rw [pruneList_get, Option.map_eq_some_iff] at hx
      obtain ⟨x0, hx0, rfl⟩ := hx
      exact ih hw _ x0 y (uniqueKeys_array.1 hu x0 (List.mem_of_getElem? hx0)) (h i x0 y hx0 hy)
  | @tuple ts _ ih =>
    cases hw with
    | tuple hw =>
      intro f v d hu h
      obtain ⟨xs, rfl⟩ := arr _ v d (fun w hw => by cases w <;> first | exact absurd rfl (hw _) | simp [de]) h
      rw [pruneBy]
      rw [de_tuple_ok] at h ⊢
      obtain ⟨ds, rfl, hl, hl2, h⟩ := h
      refine ⟨ds, rfl, by rw [pruneList_length]; exact hl, hl2, fun i t x y ht hx hy => ?_⟩
      rw [pruneList_get, Option.map_eq_some_iff] at hx
      obtain ⟨x0, hx0, rfl⟩ := hx
      have htm := List.mem_of_getElem? ht
      exact ih t htm (hw t htm) _ x0 y (uniqueKeys_array.1 hu x0 (List.mem_of_getElem? hx0)) (h i t x0 y ht hx0 hy)
  | @tupleStruct ts _ ih =>
    cases hw with
    | tupleStruct hw =>
      intro f v d hu h
      obtain ⟨xs, rfl⟩ := arr _ v d (fun w hw => by cases w <;> first | exact absurd rfl (hw _) | simp [de]) h
      rw [pruneBy]
      rw [de_tupleStruct_ok] at h ⊢
      obtain ⟨ds, rfl, hl, hl2, h⟩ := h
      refine ⟨ds, rfl, by rw [pruneList_length]; exact hl, hl2, fun i t x y ht hx hy => ?_⟩
      rw [pruneList_get, Option.map_eq_some_iff] at hx
      obtain ⟨x0, hx0, rfl⟩ := hx
      have htm := List.mem_of_getElem? ht
      exact ih t htm (hw t htm) _ x0 y (uniqueKeys_array.1 hu x0 (List.mem_of_getElem? hx0)) (h i t x0 y ht hx0 hy)
  | @map kt t hn ho ih =>
    cases hw with
    | map hw =>
      intro f v d hu h
      obtain ⟨m, rfl⟩ := mp _ v d (fun w hw => by cases w <;> first | exact absurd rfl (hw _) | simp [de]) h
      rw [de, bind_eq_ok] at h
      obtain ⟨es, h1, h2⟩ := h
      rw [pruneBy, de, bind_eq_ok]
      refine ⟨es, ?_, h2⟩
      rw [deMapLoop_ok] at h1 ⊢
      obtain ⟨kds, h1, h3⟩ := h1
      refine ⟨kds, ?_, h3⟩
      have hum := (uniqueKeys_map.1 hu).2
      rw [pruneMap_eq]
      clear h2 h3 hu
      induction h1 with
      | nil => exact .nil
      | @cons e kd m kds h1 _ ih2 =>
        have : isNoneB e.2 = false := by
          by_contra hh
          have := isNoneB_iff.1 (by simpa using hh)
          have h1 := h1.2
          rw [this] at h1
          exact de_none hr ho hn _ h1
        rw [List.filter_cons_of_pos (by simp [this]), List.map_cons]
        exact .cons ⟨h1.1, ih hw _ _ _ (hum e (by simp)) h1.2⟩ (ih2 (fun e he => hum e (by simp [he])))
  | @struct fs hf ho ih =>
    cases hw with
    | struct hnd hw =>
      intro fn v d hu h
      obtain ⟨m, rfl⟩ := mp _ v d (fun w hw => by cases w <;> first | exact absurd rfl (hw _) | simp [de, deStruct]) h
      have hum := uniqueKeys_map.1 hu
      have hup := uniqueKeys_pruneBy _ fn hu
      rw [pruneBy] at hup ⊢
      rw [de_struct_ok refs fs hnd m hum.1] at h
      rw [de_struct_ok refs fs hnd _ (uniqueKeys_map.1 hup).1]
      obtain ⟨ds, rfl, h⟩ := h
      refine ⟨ds, rfl, ?_⟩
      rw [List.forall₂_iff_get] at h ⊢
      refine ⟨h.1, fun i h1 h2 => ?_⟩
      obtain ⟨g1, g2⟩ := h.2 i h1 h2
      refine ⟨g1, ?_⟩
      have hmem : fs.get ⟨i, h1⟩ ∈ fs := List.get_mem _ _
      generalize fs.get ⟨i, h1⟩ = f at *
      rw [hmGet_pruneMap fn hum.1]
      cases hg : hmGet m f.1 with
      | none => rw [hg] at g2; exact g2
      | some x =>
        rw [hg] at g2
        by_cases hx : (isNoneB x && fn [.key f.1]) = true
        · have := isNoneB_iff.1 (Bool.and_eq_true _ _ ▸ hx).1
          subst this
          simp only [hx, if_true, Option.bind_some]
          rcases hf f hmem with hf | ⟨t, hf⟩
          · exact absurd g2 (de_none hr (ho f hmem) hf _)
          · rw [hf] at g2 ⊢
            simp only [de] at g2
            exact g2
        · simp only [hx, Bool.false_eq_true, if_false, Option.bind_some]
          exact ih f hmem (hw f hmem) _ x _ (hum.2 _ (hmGet_mem hg)) g2
  | ref n => intro f v d hu h; rw [de] at h ⊢; exact hp n f v d hu h

theorem refsAt_prune {structs : Nat → List (String × Ty)} (ho : ∀ n, OmitsNone (.struct (structs n)))
    (hw : ∀ n, WellFormed (.struct (structs n))) :
    ∀ k, (∀ n, RejectsNone (refsAt structs k n)) ∧ ∀ n, PruneFree (refsAt structs k n) := by
  intro k
  induction k with
  | zero => exact ⟨fun n d h => (by cases h), fun n f v d _ h => (by cases h)⟩
  | succ k ih =>
    refine ⟨fun n => ?_, fun n => ?_⟩
    · rw [refsAt]; exact de_none ih.1 (ho n) rfl
    · rw [refsAt]; exact de_prune ih.1 ih.2 (ho n) (hw n)

theorem deAt_prune {structs : Nat → List (String × Ty)} (ho : ∀ n, OmitsNone (.struct (structs n)))
    (hw : ∀ n, WellFormed (.struct (structs n))) {t : Ty} (ht : OmitsNone t) (hwt : WellFormed t) (k : Nat) :
    PruneFree (deAt structs k t) := de_prune (refsAt_prune ho hw k).1 (refsAt_prune ho hw k).2 ht hwt

theorem clash_prune {structs : Nat → List (String × Ty)} {t : Ty} {v : Value} (h : KeyClash structs t v) :
    ∀ f w, UniqueKeys w → v = pruneBy f w → KeyClash structs t w := by
  have ch : ∀ {f : Path → Bool} {w x : Value} {s : Step}, UniqueKeys w → child (pruneBy f w) s = some x →
      ∃ y, child w s = some y ∧ UniqueKeys y ∧ x = pruneBy (below f s) y := by
    intro f w x s hu h
    cases hc : child w s with
    | none =>
      cases s with
      | idx i => rw [child_prune_idx, hc] at h; cases h
      | key k => rw [child_prune_key f hu, hc] at h; cases h
    | some y =>
      refine ⟨y, rfl, uniqueKeys_child hu hc, ?_⟩
      cases s with
      | idx i => rw [child_prune_idx, hc] at h; cases h; rfl
      | key k =>
        rw [child_prune_key f hu, hc] at h
        simp only [Option.bind_some] at h
        split at h
        · cases h
        · cases h; rfl
  have chn : ∀ {f : Path → Bool} {w : Value} {s : Step}, UniqueKeys w → child (pruneBy f w) s ≠ none → child w s ≠ none := by
    intro f w s hu h e
    cases hc : child (pruneBy f w) s with
    | none => exact h hc
    | some x => obtain ⟨y, hy, -⟩ := ch hu hc; rw [hy] at e; cases e
  induction h with
  | here h1 h2 h3 h4 => rintro f w hu rfl; exact .here h1 h2 (chn hu h3) (chn hu h4)
  | entry h1 _ ih => rintro f w hu rfl; obtain ⟨y, hy, hu', e⟩ := ch hu h1; exact .entry hy (ih _ y hu' e)
  | option _ ih => rintro f w hu rfl; exact .option (ih f w hu rfl)
  | newtype _ ih => rintro f w hu rfl; exact .newtype (ih f w hu rfl)
  | seq h1 _ ih => rintro f w hu rfl; obtain ⟨y, hy, hu', e⟩ := ch hu h1; exact .seq hy (ih _ y hu' e)
  | tuple h0 h1 _ ih => rintro f w hu rfl; obtain ⟨y, hy, hu', e⟩ := ch hu h1; exact .tuple h0 hy (ih _ y hu' e)
  | tupleStruct h0 h1 _ ih => rintro f w hu rfl; obtain ⟨y, hy, hu', e⟩ := ch hu h1; exact .tupleStruct h0 hy (ih _ y hu' e)
  | struct h0 h1 _ ih => rintro f w hu rfl; obtain ⟨y, hy, hu', e⟩ := ch hu h1; exact .struct h0 hy (ih _ y hu' e)
  | ref _ ih => rintro f w hu rfl; exact .ref (ih f w hu rfl)

/-! ## Silence -/

theorem omitting_map {v s : Value} (h : Omitting v s) (p : Path) : view s p = some .map ↔ view v p = some .map := by
  by_cases hn : NullEntry v p
  · rw [(h p).1 hn, hn.2]; simp
  · rw [(h p).2 hn]

theorem unset_iff {v s : Value} (h : Omitting v s) (p : Path) : Unset v p ↔ Silent s p := by
  constructor
  · rintro ⟨q, k, r, e, h1, h2⟩
    refine ⟨q, k, r, e, fun q' hq => (omitting_map h q').2 (h1 q' hq), ?_⟩
    by_cases hn : NullEntry v (q ++ [.key k])
    · exact (h _).1 hn
    · rw [(h _).2 hn]
      rcases h2 with h2 | h2
      · exact h2
      · exact absurd ⟨⟨q, k, rfl⟩, h2⟩ hn
  · rintro ⟨q, k, r, e, h1, h2⟩
    refine ⟨q, k, r, e, fun q' hq => (omitting_map h q').1 (h1 q' hq), ?_⟩
    by_cases hn : NullEntry v (q ++ [.key k])
    · exact Or.inr hn.2
    · rw [(h _).2 hn] at h2; exact Or.inl h2

end Verif
