import Verif.Lemmas.DocContent
import Verif.Lemmas.SerdeOrder
import Verif.Lemmas.Merge2
/-! # Values that differ only in the kinds of their integers -/
namespace Verif
open Spec Props

/-! ## Relating containers -/

theorem Alike.refl (v : Value) : Alike v v := by
  intro p
  cases h : view v p with
  | none => exact Or.inl ⟨rfl, rfl⟩
  | some x => exact Or.inr ⟨x, x, rfl, rfl, Or.inl rfl⟩

theorem headAlike_symm {a b : Head} (h : HeadAlike a b) : HeadAlike b a := by
  rcases h with rfl | ⟨n, h1, h2⟩
  · exact Or.inl rfl
  · exact Or.inr ⟨n, h2, h1⟩

theorem Alike.symm {a b : Value} (h : Alike a b) : Alike b a := by
  intro p
  rcases h p with ⟨h1, h2⟩ | ⟨x, y, h1, h2, h3⟩
  · exact Or.inl ⟨h2, h1⟩
  · exact Or.inr ⟨y, x, h2, h1, headAlike_symm h3⟩

theorem alike_leaf {a b : Value} (ha : ∀ s, child a s = none) (hb : ∀ s, child b s = none) (h : HeadAlike (head a) (head b)) :
    Alike a b := by
  intro p
  cases p with
  | nil => exact Or.inr ⟨_, _, rfl, rfl, h⟩
  | cons s p => left; simp [view_cons, ha s, hb s]

theorem alike_array {xs ys : List Value} (hl : xs.length = ys.length)
    (h : ∀ (i : Nat) x y, xs[i]? = some x → ys[i]? = some y → Alike x y) : Alike (.array xs) (.array ys) := by
  intro p
  cases p with
  | nil => exact Or.inr ⟨_, _, rfl, rfl, Or.inl (by simp [head, hl])⟩
  | cons s p =>
    cases s with
    | key k => left; exact ⟨rfl, rfl⟩
    | idx i =>
      simp only [view_cons, child]
      by_cases hi : i < xs.length
      · have hi' : i < ys.length := hl ▸ hi
        rw [List.getElem?_eq_getElem hi, List.getElem?_eq_getElem hi']
        exact h i _ _ (List.getElem?_eq_getElem hi) (List.getElem?_eq_getElem hi') p
      · have hi' : ¬ i < ys.length := hl ▸ hi
        left
        rw [List.getElem?_eq_none (by omega), List.getElem?_eq_none (by omega)]
        exact ⟨rfl, rfl⟩

theorem alike_map {m n : Entries}
    (h : ∀ k, (hmGet m k = none ∧ hmGet n k = none) ∨ ∃ x y, hmGet m k = some x ∧ hmGet n k = some y ∧ Alike x y) :
    Alike (.map m) (.map n) := by
  intro p
  cases p with
  | nil => exact Or.inr ⟨_, _, rfl, rfl, Or.inl rfl⟩
  | cons s p =>
    cases s with
    | idx i => left; exact ⟨rfl, rfl⟩
    | key k =>
      rw [view_key_map, view_key_map]
      rcases h k with ⟨h1, h2⟩ | ⟨x, y, h1, h2, h3⟩
      · left; rw [h1, h2]; exact ⟨rfl, rfl⟩
      · rw [h1, h2]; exact h3 p

/-! ## Presented values -/

theorem integerOf_number {v : Value} {n : Int} {src : String} (h : integerOf v = some (n, src)) :
    numberOf (head v) = some n ∧ ∀ s, child v s = none := by
  cases v <;> simp only [integerOf, Option.some.injEq, Prod.mk.injEq, reduceCtorEq] at h
  all_goals
    obtain ⟨rfl, -⟩ := h
    exact ⟨rfl, by rintro (_ | _) <;> rfl⟩

theorem shows_number {t : IntTy} {m : IntOf t} {h : Head} (hs : Shows (.int t m) h) : numberOf h = some m.1 := by
  rcases shows_int hs with ⟨_, _, m', h3, rfl⟩ | ⟨_, _, m', h3, rfl⟩ | ⟨_, _, m', h3, rfl⟩ | ⟨_, _, m', h3, rfl⟩ <;>
    simp only [numberOf, h3]

theorem no_child_int {t : IntTy} {m : IntOf t} {v : Value} (hv : visit (.int t m) = .ok v) : ∀ s, child v s = none := by
  rcases shows_int (shows_visit (by simp) hv) with ⟨_, _, m', _, h⟩ | ⟨_, _, m', _, h⟩ | ⟨_, _, m', _, h⟩ | ⟨_, _, m', _, h⟩ <;>
    cases v <;> simp only [head, reduceCtorEq] at h <;> rintro (_ | _) <;> rfl

theorem accepted_visit {d : Doc} (h : Accepted d) : ∃ v, visit d = .ok v := (visit_ok_iff d).2 h

theorem getElem?_of_length {α β : Type} {xs : List α} {ys : List β} (h : xs.length = ys.length) {i : Nat} {x : α}
    (hx : xs[i]? = some x) : ∃ y, ys[i]? = some y := by
  have := (List.getElem?_eq_some_iff.1 hx).1
  exact ⟨ys[i], List.getElem?_eq_getElem (by omega)⟩

theorem presents_visit {v : Value} {d : Doc} (h : Presents v d) : UniqueKeys v → ∃ v', visit d = .ok v' ∧ Alike v v' := by
  induction h with
  | none => intro _; exact ⟨_, by rw [visit], Alike.refl _⟩
  | unit => intro _; exact ⟨_, by rw [visit], Alike.refl _⟩
  | bool b => intro _; exact ⟨_, by rw [visit], Alike.refl _⟩
  | @int v n src t m hv hm =>
    intro _
    obtain ⟨v', hv'⟩ := accepted_visit (.int t m)
    obtain ⟨h1, h2⟩ := integerOf_number hv
    refine ⟨v', hv', alike_leaf h2 (no_child_int hv') (Or.inr ⟨n, h1, ?_⟩)⟩
    rw [shows_number (shows_visit (by simp) hv'), hm]
  | @f32 x y hxy =>
    intro _
    refine ⟨_, by rw [visit], ?_⟩
    rw [sameFloat_unique (widen_f32 y) hxy]
    exact Alike.refl _
  | f64 x => intro _; exact ⟨_, by rw [visit], Alike.refl _⟩
  | char c => intro _; exact ⟨_, by rw [visit]; rfl, Alike.refl _⟩
  | str s => intro _; exact ⟨_, by rw [visit], Alike.refl _⟩
  | some _ ih => intro hu; obtain ⟨v', h1, h2⟩ := ih hu; exact ⟨v', by rw [visit]; exact h1, h2⟩
  | @array xs ds hl _ ih =>
    intro hu
    rw [uniqueKeys_array] at hu
    have hex : ∀ d ∈ ds, ∃ x, visit d = .ok x := by
      intro d hd
      obtain ⟨i, hi⟩ := List.mem_iff_getElem?.1 hd
      obtain ⟨x, hx⟩ := getElem?_of_length hl hi
      obtain ⟨v', h1, -⟩ := ih i x d hx hi (hu x (List.mem_of_getElem? hx))
      exact ⟨v', h1⟩
    obtain ⟨ys, hp⟩ := Pairs.of_forall (R := fun d x => visit d = .ok x) hex
    refine ⟨.array ys, by rw [visit]; exact (visitSeq_ok _ _ _).2 ⟨ys, rfl, hp⟩, alike_array (by rw [← hp.length, hl]) ?_⟩
    intro i x y hx hy
    obtain ⟨d, hd⟩ := getElem?_of_length hl.symm hx
    obtain ⟨v', h1, h2⟩ := ih i x d hx hd (hu x (List.mem_of_getElem? hx))
    have := hp.get i d y hd hy
    rw [this] at h1; cases h1
    exact h2
  | @map m es m' hperm hl hk _ ih =>
    intro hu
    rw [uniqueKeys_map] at hu
    have hu' : ∀ {i k x}, m'[i]? = some (k, x) → UniqueKeys x := fun h =>
      hu.2 _ (hperm.mem_iff.1 (List.mem_of_getElem? h))
    have hex : ∀ e ∈ es, ∃ kv : String × Value, visitKey e.1 = .ok kv.1 ∧ visit e.2 = .ok kv.2 := by
      intro e he
      obtain ⟨i, hi⟩ := List.mem_iff_getElem?.1 he
      obtain ⟨⟨k, x⟩, hx⟩ := getElem?_of_length hl hi
      obtain ⟨v', h1, -⟩ := ih i k x e.1 e.2 hx hi (hu' hx)
      exact ⟨(k, v'), visitKey_iff.2 (hk i k x e.1 e.2 hx hi), h1⟩
    obtain ⟨kvs, hp⟩ := Pairs.of_forall hex
    have hidx : ∀ (i : Nat) kx kv, m'[i]? = some kx → kvs[i]? = some kv → kv.1 = kx.1 ∧ Alike kx.2 kv.2 := by
      intro i ⟨k, x⟩ kv h1 h2
      obtain ⟨⟨k', d⟩, he⟩ := getElem?_of_length hl.symm h1
      obtain ⟨e1, e2⟩ := hp.get i _ _ he h2
      obtain ⟨v', h3, h4⟩ := ih i k x k' d h1 he (hu' h1)
      simp only at e2
      rw [h3] at e2; cases e2
      exact ⟨(keyText_unique (hk i k x k' d h1 he) (visitKey_iff.1 e1)).symm, h4⟩
    have hlen : kvs.length = m'.length := by rw [← hp.length, hl]
    have hkeys : kvs.map Prod.fst = m'.map Prod.fst := by
      apply List.ext_getElem (by simp [hlen])
      intro i h1 h2
      simp only [List.length_map] at h1 h2
      simp only [List.getElem_map]
      exact (hidx i _ _ (List.getElem?_eq_getElem h2) (List.getElem?_eq_getElem h1)).1
    have hnd' : (m'.map Prod.fst).Nodup := (hperm.map Prod.fst).nodup_iff.2 hu.1
    have hnd : (kvs.map Prod.fst).Nodup := by rw [hkeys]; exact hnd'
    have hfold : kvs.foldl (fun m kv => hmInsert m kv.1 kv.2) [] = kvs := insAll_fresh kvs [] (by simpa using hnd)
    refine ⟨.map kvs, by rw [visit]; exact (visitMap_ok _ _ _).2 ⟨kvs, by rw [hfold], hp⟩, alike_map fun k => ?_⟩
    cases hg : hmGet m k with
    | none =>
      refine Or.inl ⟨rfl, ?_⟩
      rw [hmGet_eq_none] at hg ⊢
      rw [hkeys]
      intro h
      exact hg ((hperm.map Prod.fst).mem_iff.1 h)
    | some x =>
      right
      have hm : (k, x) ∈ m' := hperm.mem_iff.2 (hmGet_mem hg)
      obtain ⟨i, hi⟩ := List.mem_iff_getElem?.1 hm
      obtain ⟨⟨k2, y⟩, hy⟩ := getElem?_of_length hlen.symm hi
      obtain ⟨h1, h2⟩ := hidx i _ _ hi hy
      simp only at h1
      subst h1
      exact ⟨x, y, rfl, hmGet_of_mem hnd (List.mem_of_getElem? hy), h2⟩

/-! ## Conversions -/

theorem tryInto_int {v w : Value} {n : Int} {a b : String} (hv : integerOf v = some (n, a)) (hw : integerOf w = some (n, b))
    (s : Scalar) (x : s.T) : v.tryInto s = .ok x ↔ w.tryInto s = .ok x := by
  have text : ∀ {v : Value} {a}, integerOf v = some (n, a) → v.tryInto .f64 = .ok (F64.ofInt n) ∧
      v.tryInto .string = .ok (String.ofList (decInt n)) := by
    intro v a hv
    cases v <;> simp only [integerOf, Option.some.injEq, Prod.mk.injEq, reduceCtorEq] at hv
    all_goals
      obtain ⟨rfl, -⟩ := hv
      exact ⟨rfl, rfl⟩
  cases s with
  | bool => rw [C29_number_to_bool.1 v n a hv, C29_number_to_bool.1 w n b hw]
  | f64 => rw [(text hv).1, (text hw).1]
  | string => rw [(text hv).2, (text hw).2]
  | char =>
    by_cases h : 0 ≤ n ∧ n ≤ 255
    · obtain ⟨c, h1, h2⟩ := (C30_int_to_char v n a hv).1 h.1 h.2
      obtain ⟨c', h1', h2'⟩ := (C30_int_to_char w n b hw).1 h.1 h.2
      have : c = c' := by
        apply Char.ext; apply UInt32.toNat_inj.1
        show c.toNat = c'.toNat
        omega
      rw [h1, h1', this]
    · have h' : n < 0 ∨ 255 < n := by omega
      rw [(C30_int_to_char v n a hv).2 h', (C30_int_to_char w n b hw).2 h']
      constructor <;> (intro h; cases h)
  | int t =>
    show v.tryIntoInt t = .ok x ↔ w.tryIntoInt t = .ok x
    by_cases h : InRange t n
    · obtain ⟨r, h1, h2⟩ := (C23_int_to_int t v n a hv).1 h
      obtain ⟨r', h1', h2'⟩ := (C23_int_to_int t w n b hw).1 h
      have : r = r' := Subtype.ext (h2.trans h2'.symm)
      rw [h1, h1', this]
    · rw [(C23_int_to_int t v n a hv).2 h, (C23_int_to_int t w n b hw).2 h]
      constructor <;> (intro h; cases h)

theorem number_integerOf {v : Value} {n : Int} (h : numberOf (head v) = some n) : ∃ src, integerOf v = some (n, src) := by
  cases v <;> simp only [head, numberOf, Option.some.injEq, reduceCtorEq] at h
  all_goals
    subst h
    exact ⟨_, rfl⟩

theorem headAlike_tryInto {v w : Value} (h3 : HeadAlike (head v) (head w)) (s : Scalar) (x : s.T) :
    v.tryInto s = .ok x ↔ w.tryInto s = .ok x := by
    rcases h3 with h3 | ⟨n, h3, h4⟩
    · cases v <;> cases w <;> simp only [head, Head.boolean.injEq, Head.integer.injEq, Head.longInteger.injEq, Head.uInteger.injEq,
        Head.uLongInteger.injEq, Head.float.injEq, Head.string.injEq, Head.array.injEq, reduceCtorEq] at h3
      case none.none => rfl
      case array.array xs ys => 
        rw [C31_containers_never_convert s (.array xs) _ rfl, C31_containers_never_convert s (.array ys) _ rfl]
      case map.map xs ys => 
        rw [C31_containers_never_convert s (.map xs) _ rfl, C31_containers_never_convert s (.map ys) _ rfl]
      all_goals (subst h3; rfl)
    · obtain ⟨a, ha⟩ := number_integerOf h3
      obtain ⟨b, hb⟩ := number_integerOf h4
      exact tryInto_int ha hb s x

theorem alike_tryInto {v w : Value} (h : Alike v w) (s : Scalar) (x : s.T) : v.tryInto s = .ok x ↔ w.tryInto s = .ok x := by
  rcases h [] with ⟨h, -⟩ | ⟨a, b, h1, h2, h3⟩
  · cases h
  · rw [view_nil, Option.some.injEq] at h1 h2
    subst h1; subst h2
    exact headAlike_tryInto h3 s x

/-! ## A canonical representative -/

/-- The first of `i64`, `u64`, `i128`, `u128` that has the number. -/
def normInt (n : Int) : Value :=
  if h : IntTy.lo .i64 ≤ n ∧ n ≤ IntTy.hi .i64 then .integer ⟨n, h⟩
  else if h : IntTy.lo .u64 ≤ n ∧ n ≤ IntTy.hi .u64 then .uInteger ⟨n, h⟩
  else if h : IntTy.lo .i128 ≤ n ∧ n ≤ IntTy.hi .i128 then .longInteger ⟨n, h⟩
  else if h : IntTy.lo .u128 ≤ n ∧ n ≤ IntTy.hi .u128 then .uLongInteger ⟨n, h⟩
  else .none

mutual
/-- Every integer in its canonical kind. -/
def norm (v : Value) : Value :=
  match v with
  | .none => .none
  | .boolean b => .boolean b
  | .integer n => normInt n.1
  | .longInteger n => normInt n.1
  | .uInteger n => normInt n.1
  | .uLongInteger n => normInt n.1
  | .float x => .float x
  | .string s => .string s
  | .array xs => .array (normList xs)
  | .map m => .map (normMap m)
  termination_by structural v
def normList (xs : List Value) : List Value :=
  match xs with
  | [] => []
  | x :: r => norm x :: normList r
  termination_by structural xs
def normMap (m : List (String × Value)) : List (String × Value) :=
  match m with
  | [] => []
  | e :: r => normEntry e :: normMap r
  termination_by structural m
def normEntry (e : String × Value) : String × Value :=
  match e with
  | (k, v) => (k, norm v)
  termination_by structural e
end

theorem normList_eq (xs : List Value) : normList xs = xs.map norm := by
  induction xs with
  | nil => rw [normList]; rfl
  | cons x r ih => rw [normList, ih]; rfl

theorem normMap_eq (m : Entries) : normMap m = m.map (fun e => (e.1, norm e.2)) := by
  induction m with
  | nil => rw [normMap]; rfl
  | cons e r ih => obtain ⟨k, v⟩ := e; rw [normMap, normEntry, ih]; rfl

theorem normInt_spec {v : Value} {n : Int} {src : String} (h : integerOf v = some (n, src)) :
    ∃ src', integerOf (normInt n) = some (n, src') := by
  have key : (IntTy.lo .i64 ≤ n ∧ n ≤ IntTy.hi .i64) ∨ (IntTy.lo .u64 ≤ n ∧ n ≤ IntTy.hi .u64) ∨
      (IntTy.lo .i128 ≤ n ∧ n ≤ IntTy.hi .i128) ∨ (IntTy.lo .u128 ≤ n ∧ n ≤ IntTy.hi .u128) := by
    cases v <;> simp only [integerOf, Option.some.injEq, Prod.mk.injEq, reduceCtorEq] at h
    all_goals (obtain ⟨rfl, -⟩ := h; rename_i k)
    · exact Or.inl k.2
    · exact Or.inr (Or.inr (Or.inl k.2))
    · exact Or.inr (Or.inl k.2)
    · exact Or.inr (Or.inr (Or.inr k.2))
  unfold normInt
  split
  · exact ⟨_, rfl⟩
  · split
    · exact ⟨_, rfl⟩
    · split
      · exact ⟨_, rfl⟩
      · split
        · exact ⟨_, rfl⟩
        · rcases key with h | h | h | h <;> contradiction

/-- The canonical representative of what is shown. -/
def normHead (h : Head) : Head :=
  match numberOf h with
  | some n => head (normInt n)
  | none => h

theorem norm_int {v : Value} {n : Int} {src : String} (h : integerOf v = some (n, src)) : norm v = normInt n := by
  cases v <;> simp only [integerOf, Option.some.injEq, Prod.mk.injEq, reduceCtorEq] at h
  all_goals (obtain ⟨rfl, -⟩ := h; rw [norm])

theorem norm_cases (v : Value) : (∃ n src, integerOf v = some (n, src)) ∨ (∃ xs, v = .array xs) ∨ (∃ m, v = .map m) ∨
    (norm v = v ∧ ∀ s, child v s = none) := by
  cases v with
  | array xs => exact Or.inr (Or.inl ⟨xs, rfl⟩)
  | map m => exact Or.inr (Or.inr (Or.inl ⟨m, rfl⟩))
  | integer n => exact Or.inl ⟨_, _, rfl⟩
  | longInteger n => exact Or.inl ⟨_, _, rfl⟩
  | uInteger n => exact Or.inl ⟨_, _, rfl⟩
  | uLongInteger n => exact Or.inl ⟨_, _, rfl⟩
  | _ => exact Or.inr (Or.inr (Or.inr ⟨by rw [norm], by rintro (_ | _) <;> rfl⟩))

theorem head_norm (v : Value) : head (norm v) = normHead (head v) := by
  cases v <;> rw [norm] <;> simp [head, normHead, numberOf, normList_eq]

theorem hmGet_normMap (m : Entries) (k : String) : hmGet (normMap m) k = (hmGet m k).map norm := by
  rw [normMap_eq]
  induction m with
  | nil => rfl
  | cons e r ih =>
    obtain ⟨k', v⟩ := e
    simp only [List.map_cons, hmGet]
    split
    · rfl
    · exact ih

theorem child_norm (v : Value) (s : Step) : child (norm v) s = (child v s).map norm := by
  rcases norm_cases v with ⟨n, src, h⟩ | ⟨xs, rfl⟩ | ⟨m, rfl⟩ | ⟨h1, h2⟩
  · obtain ⟨src', h'⟩ := normInt_spec h
    rw [norm_int h, (integerOf_number h').2, (integerOf_number h).2]; rfl
  · rw [norm, normList_eq]
    cases s with
    | key k => rfl
    | idx i => simp [child]
  · rw [norm]
    cases s with
    | key k => rw [child_key_map, child_key_map, hmGet_normMap]
    | idx i => rfl
  · rw [h1, h2]; rfl

theorem view_norm (p : Path) : ∀ v, view (norm v) p = (view v p).map normHead := by
  induction p with
  | nil => intro v; simp [view_nil, head_norm]
  | cons s p ih =>
    intro v
    rw [view_cons, view_cons, child_norm]
    cases child v s with
    | none => rfl
    | some x => simp only [Option.map_some, Option.bind_some]; exact ih x

theorem alike_norm {a b : Value} (h : Alike a b) : Same (norm a) (norm b) := by
  intro p
  rw [view_norm, view_norm]
  rcases h p with ⟨h1, h2⟩ | ⟨x, y, h1, h2, h3⟩
  · rw [h1, h2]
  · rw [h1, h2]
    rcases h3 with rfl | ⟨n, h3, h4⟩
    · rfl
    · simp only [Option.map_some, normHead, h3, h4]

theorem uniqueKeys_norm (v : Value) : UniqueKeys v → UniqueKeys (norm v) := by
  induction v using Value.ind with
  | array xs ih =>
    rw [norm, normList_eq, uniqueKeys_array, uniqueKeys_array]
    intro h y hy
    obtain ⟨x, hx, rfl⟩ := List.mem_map.1 hy
    exact ih x hx (h x hx)
  | map m ih =>
    rw [norm, normMap_eq, uniqueKeys_map, uniqueKeys_map]
    rintro ⟨h1, h2⟩
    refine ⟨by simpa [Function.comp_def] using h1, ?_⟩
    intro e he
    obtain ⟨x, hx, rfl⟩ := List.mem_map.1 he
    exact ih x hx (h2 x hx)
  | _ => intro _; rw [norm]; first | trivial | (unfold normInt; repeat' split) <;> trivial

theorem clash_norm {structs : Nat → List (String × Ty)} {t : Ty} {v : Value} (h : KeyClash structs t v) :
    ∀ w, v = norm w → KeyClash structs t w := by
  have ch : ∀ {w x : Value} {s : Step}, child (norm w) s = some x → ∃ y, child w s = some y ∧ x = norm y := by
    intro w x s h
    rw [child_norm] at h
    cases hc : child w s with
    | none => rw [hc] at h; cases h
    | some y => rw [hc] at h; cases h; exact ⟨y, rfl, rfl⟩
  have chn : ∀ {w : Value} {s : Step}, child (norm w) s ≠ none → child w s ≠ none := by
    intro w s h e; rw [child_norm, e] at h; exact h rfl
  induction h with
  | here h1 h2 h3 h4 => rintro w rfl; exact .here h1 h2 (chn h3) (chn h4)
  | entry h1 _ ih => rintro w rfl; obtain ⟨y, hy, e⟩ := ch h1; exact .entry hy (ih y e)
  | option _ ih => rintro w rfl; exact .option (ih w rfl)
  | newtype _ ih => rintro w rfl; exact .newtype (ih w rfl)
  | seq h1 _ ih => rintro w rfl; obtain ⟨y, hy, e⟩ := ch h1; exact .seq hy (ih y e)
  | tuple h0 h1 _ ih => rintro w rfl; obtain ⟨y, hy, e⟩ := ch h1; exact .tuple h0 hy (ih y e)
  | tupleStruct h0 h1 _ ih => rintro w rfl; obtain ⟨y, hy, e⟩ := ch h1; exact .tupleStruct h0 hy (ih y e)
  | struct h0 h1 _ ih => rintro w rfl; obtain ⟨y, hy, e⟩ := ch h1; exact .struct h0 hy (ih y e)
  | ref _ ih => rintro w rfl; exact .ref (ih w rfl)

theorem tryInto_norm (v : Value) (s : Scalar) (x : s.T) : v.tryInto s = .ok x ↔ (norm v).tryInto s = .ok x := by
  rcases norm_cases v with ⟨n, src, h⟩ | ⟨xs, rfl⟩ | ⟨m, rfl⟩ | ⟨h1, h2⟩
  · obtain ⟨src', h'⟩ := normInt_spec h
    rw [norm_int h]; exact tryInto_int h h' s x
  · rw [norm, C31_containers_never_convert s (.array xs) _ rfl, C31_containers_never_convert s (.array _) _ rfl]
  · rw [norm, C31_containers_never_convert s (.map m) _ rfl, C31_containers_never_convert s (.map _) _ rfl]
  · rw [h1]

/-! ## Deserialization -/

/-- The decoder gives the same data for the canonical representative. -/
def NormFree (dec : Decoder) : Prop := ∀ v d, dec v = .ok d ↔ dec (norm v) = .ok d

theorem norm_eq_none {v : Value} : norm v = .none ↔ v = .none := by
  constructor
  · intro h
    rcases norm_cases v with ⟨n, src, h'⟩ | ⟨xs, rfl⟩ | ⟨m, rfl⟩ | ⟨h1, -⟩
    · obtain ⟨src', h''⟩ := normInt_spec h'
      rw [norm_int h'] at h; rw [h] at h''; cases h''
    · rw [norm] at h; cases h
    · rw [norm] at h; cases h
    · rw [← h1, h]
  · rintro rfl; rw [norm]

theorem norm_array_or (v : Value) : (∃ xs, v = .array xs ∧ norm v = .array (xs.map norm)) ∨
    ((∀ xs, v ≠ .array xs) ∧ ∀ xs, norm v ≠ .array xs) := by
  cases v with
  | array xs => exact Or.inl ⟨xs, rfl, by rw [norm, normList_eq]⟩
  | _ =>
    refine Or.inr ⟨by simp, ?_⟩
    intro xs; rw [norm]
    first | (simp; done) | (unfold normInt; repeat' split) <;> simp

theorem norm_map_or (v : Value) : (∃ m, v = .map m ∧ norm v = .map (m.map (fun e => (e.1, norm e.2)))) ∨
    ((∀ m, v ≠ .map m) ∧ ∀ m, norm v ≠ .map m) := by
  cases v with
  | map m => exact Or.inl ⟨m, rfl, by rw [norm, normMap_eq]⟩
  | _ =>
    refine Or.inr ⟨by simp, ?_⟩
    intro xs; rw [norm]
    first | (simp; done) | (unfold normInt; repeat' split) <;> simp

theorem bind_ok_congr {α β : Type} {x y : Outcome ModelError α} (h : ∀ a, x = .ok a ↔ y = .ok a)
    {f g : α → Outcome ModelError β} (hf : ∀ a b, f a = .ok b ↔ g a = .ok b) (b : β) :
    (x >>= f) = .ok b ↔ (y >>= g) = .ok b := by
  rw [bind_eq_ok, bind_eq_ok]
  constructor
  · rintro ⟨a, h1, h2⟩; exact ⟨a, (h a).1 h1, (hf a b).1 h2⟩
  · rintro ⟨a, h1, h2⟩; exact ⟨a, (h a).2 h1, (hf a b).2 h2⟩

theorem vecLoop_norm {dec : Decoder} (h : NormFree dec) (xs : List Value) : ∀ acc ds,
    deVecLoop dec acc xs = .ok ds ↔ deVecLoop dec acc (xs.map norm) = .ok ds := by
  induction xs with
  | nil => intro acc ds; rfl
  | cons x r ih =>
    intro acc ds
    simp only [deVecLoop, List.map_cons]
    exact bind_ok_congr (h x) (fun a b => ih _ b) ds

theorem tupleLoop_norm : ∀ (decs : List Decoder), (∀ dec ∈ decs, NormFree dec) → ∀ (xs : List Value) (i : Nat) acc ds,
    deTupleLoop i acc decs xs = .ok ds ↔ deTupleLoop i acc decs (xs.map norm) = .ok ds := by
  intro decs
  induction decs with
  | nil => intro _ xs i acc ds; cases xs <;> rfl
  | cons dec decs ih =>
    intro h xs i acc ds
    cases xs with
    | nil => rfl
    | cons x r =>
      simp only [deTupleLoop, List.map_cons]
      exact bind_ok_congr (h dec (by simp) x) (fun a b => ih (fun d hd => h d (by simp [hd])) r _ _ b) ds

theorem mapLoop_norm {dec : Decoder} (h : NormFree dec) (kt : KeyTy) (m : Entries) : ∀ acc es,
    deMapLoop kt dec acc m = .ok es ↔ deMapLoop kt dec acc (m.map (fun e => (e.1, norm e.2))) = .ok es := by
  induction m with
  | nil => intro acc ds; rfl
  | cons e r ih =>
    intro acc ds
    obtain ⟨k, v⟩ := e
    simp only [deMapLoop, List.map_cons]
    exact bind_ok_congr (fun a => Iff.rfl) (fun a b => bind_ok_congr (h v) (fun a b => ih _ b) b) ds

theorem structLoop_norm {fds : List FieldDec} (h : ∀ fd ∈ fds, NormFree fd.dec) (m : Entries) : ∀ acc ds,
    deStructLoop fds acc m = .ok ds ↔ deStructLoop fds acc (m.map (fun e => (e.1, norm e.2))) = .ok ds := by
  induction m with
  | nil => intro acc ds; rfl
  | cons e r ih =>
    intro acc ds
    obtain ⟨k, v⟩ := e
    simp only [deStructLoop, List.map_cons]
    refine bind_ok_congr (fun a => Iff.rfl) (fun k b => ?_) ds
    cases hf : fds.find? (fun fd => fd.name == k) with
    | none => simp only [deIgnored_ok, Outcome.bind_ok]; exact ih _ b
    | some fd =>
      simp only
      split
      · rfl
      · exact bind_ok_congr (h fd (List.mem_of_find?_eq_some hf) v) (fun a b => ih _ b) b

theorem decoders_norm {refs : Nat → Decoder} {ts : List Ty} (h : ∀ t ∈ ts, NormFree (de refs t)) :
    ∀ dec ∈ decoders refs ts, NormFree dec := by
  induction ts with
  | nil => rw [decoders]; simp
  | cons t r ih =>
    rw [decoders]
    intro dec hd
    rcases List.mem_cons.1 hd with rfl | hd
    · exact h t (by simp)
    · exact ih (fun t ht => h t (by simp [ht])) dec hd

theorem fieldDecoders_norm {refs : Nat → Decoder} {fs : List (String × Ty)} (h : ∀ f ∈ fs, NormFree (de refs (Prod.snd f))) :
    ∀ fd ∈ fieldDecoders refs fs, NormFree fd.dec := by
  induction fs with
  | nil => rw [fieldDecoders]; simp
  | cons f r ih =>
    obtain ⟨k, t⟩ := f
    rw [fieldDecoders, fieldDecoder]
    intro fd hd
    rcases List.mem_cons.1 hd with rfl | hd
    · exact h (k, t) (by simp)
    · exact ih (fun t ht => h t (by simp [ht])) fd hd

theorem de_norm {refs : Nat → Decoder} (hr : ∀ n, NormFree (refs n)) {t : Ty} (ht : Concrete t) : NormFree (de refs t) := by
  have sc : ∀ (s : Scalar) (f : s.T → Data) v d, (Outcome.ofExcept (Value.tryInto s v) >>= fun a => Outcome.ok (f a)) = .ok d ↔
      (Outcome.ofExcept ((norm v).tryInto s) >>= fun a => Outcome.ok (f a)) = .ok d := by
    intro s f v d
    exact bind_ok_congr (fun a => by rw [ofExcept_ok, ofExcept_ok]; exact tryInto_norm v s a) (fun _ _ => Iff.rfl) d
  have nn : ∀ (t : Ty) (v : Value) (d : Data), (∀ w : Value, w ≠ .none → ∃ e, de refs t w = .err e) →
      (de refs t v = .ok d ↔ de refs t (norm v) = .ok d) := by
    intro t v d e
    by_cases hv : v = .none
    · subst hv; rw [norm]
    · have hv' : norm v ≠ .none := fun h => hv (norm_eq_none.1 h)
      obtain ⟨_, e1⟩ := e v hv
      obtain ⟨_, e2⟩ := e _ hv'
      rw [e1, e2]
      constructor <;> (intro h; cases h)
  have arr : ∀ (t : Ty) (f : List Value → Outcome ModelError Data) (v : Value) (d : Data),
      (∀ xs, de refs t (.array xs) = f xs) → (∀ w : Value, (∀ xs, w ≠ .array xs) → ∃ e, de refs t w = .err e) →
      (∀ xs d, f xs = .ok d ↔ f (xs.map norm) = .ok d) → (de refs t v = .ok d ↔ de refs t (norm v) = .ok d) := by
    intro t f v d h0 e hf
    rcases norm_array_or v with ⟨xs, rfl, h⟩ | ⟨h1, h2⟩
    · rw [h, h0, h0]; exact hf xs d
    · obtain ⟨_, e1⟩ := e v h1
      obtain ⟨_, e2⟩ := e _ h2
      rw [e1, e2]
      constructor <;> (intro h; cases h)
  have mp : ∀ (t : Ty) (f : Entries → Outcome ModelError Data) (v : Value) (d : Data),
      (∀ m, de refs t (.map m) = f m) → (∀ w : Value, (∀ m, w ≠ .map m) → ∃ e, de refs t w = .err e) →
      (∀ m d, f m = .ok d ↔ f (m.map (fun e => (e.1, norm e.2))) = .ok d) →
      (de refs t v = .ok d ↔ de refs t (norm v) = .ok d) := by
    intro t f v d h0 e hf
    rcases norm_map_or v with ⟨xs, rfl, h⟩ | ⟨h1, h2⟩
    · rw [h, h0, h0]; exact hf xs d
    · obtain ⟨_, e1⟩ := e v h1
      obtain ⟨_, e2⟩ := e _ h2
      rw [e1, e2]
      constructor <;> (intro h; cases h)
  induction ht with
  | leaf ht =>
    simp only [List.mem_cons, List.not_mem_nil, or_false] at ht
    intro v d
    rcases ht with rfl | rfl | rfl | rfl | rfl | rfl | rfl | rfl | rfl
    · rw [de, de]; exact sc .bool _ v d
    · rw [de, de]; exact sc .f64 _ v d
    · rw [de, de]; exact sc .f64 _ v d
    · rw [de, de]; exact sc .char _ v d
    · rw [de, de]; exact sc .string _ v d
    · exact nn _ v d (fun w hw => by cases w <;> first | exact absurd rfl hw | simp [de])
    · exact nn _ v d (fun w hw => by cases w <;> first | exact absurd rfl hw | simp [de])
    · rw [de, de]
    · rw [de, de]
  | int t =>
    intro v d
    rw [de, de]
    refine bind_ok_congr (fun a => ?_) (fun _ _ => Iff.rfl) d
    by_cases hu : Upto64 t
    · rw [deInt_eq hu, deInt_eq hu, ofExcept_ok, ofExcept_ok]; exact tryInto_norm v (.int t) a
    · have : t = .i128 ∨ t = .u128 := by
        by_contra h
        rw [not_or] at h
        exact hu h
      rcases this with rfl | rfl <;> exact Iff.rfl
  | @option t _ ih =>
    intro v d
    by_cases hv : v = .none
    · subst hv; rw [norm]
    · have hv' : norm v ≠ .none := fun h => hv (norm_eq_none.1 h)
      have e : ∀ w : Value, w ≠ .none → de refs (.option t) w = (de refs t w >>= fun d => .ok (.some d)) := by
        intro w hw; cases w <;> first | exact absurd rfl hw | simp [de]
      rw [e v hv, e _ hv']
      exact bind_ok_congr (ih v) (fun _ _ => Iff.rfl) d
  | newtype _ ih => intro v d; rw [de, de]; exact bind_ok_congr (ih v) (fun _ _ => Iff.rfl) d
  | seq _ ih =>
    intro v d
    exact arr _ _ v d (fun xs => by rw [de]) (fun w hw => by cases w <;> first | exact absurd rfl (hw _) | simp [de]) fun xs d => bind_ok_congr (fun a => vecLoop_norm ih xs [] a) (fun _ _ => Iff.rfl) d
  | @tuple ts _ ih =>
    intro v d
    exact arr _ _ v d (fun xs => by rw [de]) (fun w hw => by cases w <;> first | exact absurd rfl (hw _) | simp [de]) fun xs d => bind_ok_congr (fun a => tupleLoop_norm _ (decoders_norm ih) xs 0 [] a) (fun _ _ => Iff.rfl) d
  | @tupleStruct ts _ ih =>
    intro v d
    exact arr _ _ v d (fun xs => by rw [de]) (fun w hw => by cases w <;> first | exact absurd rfl (hw _) | simp [de]) fun xs d => bind_ok_congr (fun a => tupleLoop_norm _ (decoders_norm ih) xs 0 [] a) (fun _ _ => Iff.rfl) d
  | map _ ih =>
    intro v d
    exact mp _ _ v d (fun xs => by first | (rw [de]; done) | (rw [de, deStruct])) (fun w hw => by cases w <;> first | exact absurd rfl (hw _) | simp [de, deStruct]) fun m d => bind_ok_congr (fun a => mapLoop_norm ih _ m [] a) (fun _ _ => Iff.rfl) d
  | @struct fs _ ih =>
    intro v d
    exact mp _ _ v d (fun xs => by first | (rw [de]; done) | (rw [de, deStruct])) (fun w hw => by cases w <;> first | exact absurd rfl (hw _) | simp [de, deStruct]) fun m d => bind_ok_congr (fun a => structLoop_norm (fieldDecoders_norm ih) m [] a) (fun _ _ => Iff.rfl) d
  | ref n => intro v d; rw [de, de]; exact hr n v d

theorem refsAt_norm {structs : Nat → List (String × Ty)} (hs : ∀ n, Concrete (.struct (structs n))) :
    ∀ k n, NormFree (refsAt structs k n) := by
  intro k
  induction k with
  | zero => intro n v d; exact Iff.rfl
  | succ k ih => intro n; rw [refsAt]; exact de_norm ih (hs n)

/-! ## Children and merging -/

theorem alike_none {a b : Value} (h : Alike a b) (p : Path) : view a p = none ↔ view b p = none := by
  rcases h p with ⟨h1, h2⟩ | ⟨x, y, h1, h2, -⟩
  · simp [h1, h2]
  · simp [h1, h2]

theorem headAlike_map {h h' : Head} (a : HeadAlike h h') : h = .map ↔ h' = .map := by
  rcases a with rfl | ⟨n, h1, h2⟩
  · rfl
  · constructor
    · rintro rfl; cases h1
    · rintro rfl; cases h2

theorem alike_map_at {a b : Value} (h : Alike a b) (p : Path) : view a p = some .map ↔ view b p = some .map := by
  rcases h p with ⟨h1, h2⟩ | ⟨x, y, h1, h2, h3⟩
  · simp [h1, h2]
  · rw [h1, h2, Option.some.injEq, Option.some.injEq]; exact headAlike_map h3

theorem alike_isMap {a b : Value} (h : Alike a b) : a.isMap = b.isMap := by
  have := alike_map_at h []
  rw [view_nil, view_nil, Option.some.injEq, Option.some.injEq, head_map_iff, head_map_iff] at this
  exact Bool.eq_iff_iff.2 this

theorem alike_child {a b : Value} (h : Alike a b) (s : Step) :
    Alike ((child a s).getD .none) ((child b s).getD .none) := by
  have h0 := alike_none h [s]
  have e : ∀ v : Value, view v [s] = none ↔ child v s = none := by
    intro v; rw [view_cons]; cases child v s <;> simp [view]
  rw [e, e] at h0
  cases ha : child a s with
  | none => rw [h0.1 ha]; exact Alike.refl _
  | some x =>
    cases hb : child b s with
    | none => rw [h0.2 hb] at ha; cases ha
    | some y =>
      intro p
      have := h (s :: p)
      rw [view_cons, view_cons, ha, hb] at this
      exact this

theorem silent_alike {a b : Value} (h : Alike a b) {p : Path} (hs : Silent a p) : Silent b p := by
  obtain ⟨q, k, r, e, h2, h3⟩ := hs
  exact ⟨q, k, r, e, fun q' hq => (alike_map_at h q').1 (h2 q' hq), (alike_none h _).1 h3⟩

theorem alike_merge {a a' b b' : Value} (ha : Alike a a') (hb : Alike b b')
    (hu : UniqueKeys b) (hu' : UniqueKeys b') : Alike (a.merge b) (a'.merge b') := by
  by_cases h1 : b.isMap = true
  · by_cases h2 : a.isMap = true
    · have h1' : b'.isMap = true := alike_isMap hb ▸ h1
      have h2' : a'.isMap = true := alike_isMap ha ▸ h2
      intro p
      by_cases hs : Silent b p
      · rw [(view_merge' h2 h1 hu p).1 hs, (view_merge' h2' h1' hu' p).1 (silent_alike hb hs)]
        exact ha p
      · rw [(view_merge' h2 h1 hu p).2 hs,
          (view_merge' h2' h1' hu' p).2 (fun h => hs (silent_alike (Alike.symm hb) h))]
        exact hb p
    · have h2f : a.isMap = false := by simpa using h2
      have h2f' : a'.isMap = false := alike_isMap ha ▸ h2f
      rw [merge_of_not_map_left h2f, merge_of_not_map_left h2f']; exact ha
  · have h1f : b.isMap = false := by simpa using h1
    have h1f' : b'.isMap = false := alike_isMap hb ▸ h1f
    rw [merge_of_not_map_right h1f, merge_of_not_map_right h1f']; exact ha

end Verif
