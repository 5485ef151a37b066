import Verif.Props.Reread
/-!
# C38: how much stack there is cannot change what a typed read gives
-/
namespace Verif.Props
open Verif Verif.Spec

/-- The second is what the first is, unless the first ran out of stack. -/
def Upto {α : Type} (a b : Outcome ModelError α) : Prop := a = .panic ∨ a = b

theorem upto_refl {α : Type} (a : Outcome ModelError α) : Upto a a := Or.inr rfl

theorem upto_bind {α β : Type} {a b : Outcome ModelError α} {f g : α → Outcome ModelError β} (h : Upto a b) (hf : ∀ x, Upto (f x) (g x)) :
    Upto (a >>= f) (b >>= g) := by
  rcases h with rfl | rfl
  · exact Or.inl rfl
  · cases a with
    | ok x => exact hf x
    | err e => exact Or.inr rfl
    | panic => exact Or.inl rfl

theorem upto_vec {d d' : Decoder} (h : ∀ v, Upto (d v) (d' v)) (xs : List Value) : ∀ acc, Upto (deVecLoop d acc xs) (deVecLoop d' acc xs) := by
  induction xs with
  | nil => exact fun _ => upto_refl _
  | cons x r ih => exact fun acc => upto_bind (h x) fun y => ih _

theorem upto_tuple {ds ds' : List Decoder} (h : List.Forall₂ (fun d d' => ∀ v, Upto (d v) (d' v)) ds ds') :
    ∀ (xs : List Value) i acc, Upto (deTupleLoop i acc ds xs) (deTupleLoop i acc ds' xs) := by
  induction h with
  | nil => exact fun _ _ _ => upto_refl _
  | cons h1 _ ih =>
    intro xs i acc
    cases xs with
    | nil => exact upto_refl _
    | cons x r => exact upto_bind (h1 x) fun y => ih _ _ _

theorem upto_map {d d' : Decoder} (h : ∀ v, Upto (d v) (d' v)) (kt : KeyTy) (m : Entries) :
    ∀ acc, Upto (deMapLoop kt d acc m) (deMapLoop kt d' acc m) := by
  induction m with
  | nil => exact fun _ => upto_refl _
  | cons e r ih =>
    obtain ⟨k, v⟩ := e
    exact fun acc => upto_bind (upto_refl _) fun key => upto_bind (h v) fun y => ih _

/-- Two readers of a field that differ in the stack they have. -/
def UptoField (a b : FieldDec) : Prop := a.name = b.name ∧ a.missing = b.missing ∧ ∀ v, Upto (a.dec v) (b.dec v)

theorem upto_find {fds fds' : List FieldDec} (h : List.Forall₂ UptoField fds fds') (k : String) :
    (fds.find? (fun fd => fd.name == k) = none ∧ fds'.find? (fun fd => fd.name == k) = none) ∨
    ∃ f f', fds.find? (fun fd => fd.name == k) = some f ∧ fds'.find? (fun fd => fd.name == k) = some f' ∧ UptoField f f' := by
  induction h with
  | nil => exact Or.inl ⟨rfl, rfl⟩
  | @cons a b _ _ h1 _ ih =>
    simp only [List.find?_cons]
    rw [← h1.1]
    cases a.name == k with
    | true => exact Or.inr ⟨a, b, rfl, rfl, h1⟩
    | false => exact ih

theorem upto_struct {fds fds' : List FieldDec} (h : List.Forall₂ UptoField fds fds') (v : Value) : Upto (deStruct fds v) (deStruct fds' v) := by
  have hloop : ∀ (m : Entries) acc, Upto (deStructLoop fds acc m) (deStructLoop fds' acc m) := by
    intro m
    induction m with
    | nil => exact fun _ => upto_refl _
    | cons e r ih =>
      obtain ⟨k, x⟩ := e
      intro acc
      refine upto_bind (upto_refl _) fun k => ?_
      rcases upto_find h k with ⟨h1, h2⟩ | ⟨f, f', h1, h2, h3⟩
      · rw [h1, h2]; exact upto_bind (upto_refl _) fun _ => ih _
      · rw [h1, h2]
        dsimp only
        split
        · exact upto_refl _
        · exact upto_bind (h3.2.2 x) fun _ => ih _
  have hfin : ∀ acc, deStructFinish acc fds = deStructFinish acc fds' := by
    intro acc
    clear hloop
    induction h with
    | nil => rfl
    | @cons a b _ _ h1 _ ih => simp only [deStructFinish, h1.1, h1.2.1, ih]
  cases v with
  | map m => exact upto_bind (hloop m []) fun acc => by rw [hfin acc]; exact upto_refl _
  | _ => exact upto_refl _

theorem upto_de {refs refs' : Nat → Decoder} (h : ∀ n v, Upto (refs n v) (refs' n v)) (T : Ty) : ∀ v, Upto (de refs T v) (de refs' T v) := by
  intro v
  cases T with
  | option t =>
    by_cases hv : v = .none
    · subst hv; simp only [de]; exact upto_refl _
    · rw [de, de]
      · exact upto_bind (upto_de h t v) fun _ => upto_refl _
      · exact fun e => absurd e hv
      · exact fun e => absurd e hv
  | newtype t => rw [de, de]; exact upto_bind (upto_de h t v) fun _ => upto_refl _
  | seq t =>
    cases v with
    | array xs => simp only [de]; exact upto_bind (upto_vec (upto_de h t) xs _) fun _ => upto_refl _
    | _ => simp only [de]; exact upto_refl _
  | tuple ts =>
    cases v with
    | array xs => simp only [de]; exact upto_bind (upto_tuple (upto_decoders h ts) xs _ _) fun _ => upto_refl _
    | _ => simp only [de]; exact upto_refl _
  | tupleStruct ts =>
    cases v with
    | array xs => simp only [de]; exact upto_bind (upto_tuple (upto_decoders h ts) xs _ _) fun _ => upto_refl _
    | _ => simp only [de]; exact upto_refl _
  | map kt t =>
    cases v with
    | map m => simp only [de]; exact upto_bind (upto_map (upto_de h t) kt m _) fun _ => upto_refl _
    | _ => simp only [de]; exact upto_refl _
  | struct fs => rw [de, de]; exact upto_struct (upto_fields h fs) v
  | ref n => rw [de, de]; exact h n v
  | _ => simp only [de]; exact upto_refl _
  termination_by sizeOf T
where
  upto_decoders {refs refs' : Nat → Decoder} (h : ∀ n v, Upto (refs n v) (refs' n v)) (ts : List Ty) :
      List.Forall₂ (fun d d' => ∀ v, Upto (d v) (d' v)) (decoders refs ts) (decoders refs' ts) := by
    cases ts with
    | nil => exact .nil
    | cons t r => rw [decoders, decoders]; exact .cons (upto_de h t) (upto_decoders h r)
    termination_by sizeOf ts
  upto_fields {refs refs' : Nat → Decoder} (h : ∀ n v, Upto (refs n v) (refs' n v)) (fs : List (String × Ty)) :
      List.Forall₂ UptoField (fieldDecoders refs fs) (fieldDecoders refs' fs) := by
    cases fs with
    | nil => exact .nil
    | cons f r =>
      rw [fieldDecoders, fieldDecoders]
      obtain ⟨n, t⟩ := f
      exact .cons ⟨rfl, rfl, upto_de h t⟩ (upto_fields h r)
    termination_by sizeOf fs

theorem upto_refsAt (structs : Nat → List (String × Ty)) (k : Nat) : ∀ j, k ≤ j → ∀ n v, Upto (refsAt structs k n v) (refsAt structs j n v) := by
  induction k with
  | zero => exact fun _ _ _ _ => Or.inl rfl
  | succ k ih =>
    intro j hj n v
    obtain ⟨i, rfl⟩ : ∃ i, j = i + 1 := ⟨j - 1, by omega⟩
    exact upto_de (ih i (by omega)) _ v

/-- **C38.** What a typed read gives, result or error, does not depend on how much stack there is, as long as there is enough. -/
theorem C38_stack (structs : Nat → List (String × Ty)) (T : Ty) (v : Value) (k j : Nat) (hk : deAt structs k T v ≠ .panic) (hj : k ≤ j) :
    deAt structs j T v = deAt structs k T v :=
  ((upto_de (upto_refsAt structs k j hj) T v).resolve_left hk).symm

/-- A list of lists of lists, read with more stack than needed: the same. -/
example : deAt (fun _ => [("next", .option (.ref 0))]) 3 (.ref 0) (.map [("next", .map [("next", .none)])]) =
      .ok (.struct [("next", .some (.struct [("next", .none)]))]) ∧
    deAt (fun _ => [("next", .option (.ref 0))]) 1 (.ref 0) (.map [("next", .map [("next", .none)])]) = .panic ∧
    ∀ j, 3 ≤ j → deAt (fun _ => [("next", .option (.ref 0))]) j (.ref 0) (.map [("next", .map [("next", .none)])]) =
      .ok (.struct [("next", .some (.struct [("next", .none)]))]) := by
  have h : deAt (fun _ => [("next", .option (.ref 0))]) 3 (.ref 0) (.map [("next", .map [("next", .none)])]) =
      .ok (.struct [("next", .some (.struct [("next", .none)]))]) := by rfl
  refine ⟨h, by rfl, fun j hj => ?_⟩
  rw [C38_stack _ _ _ 3 j (by rw [h]; simp) hj, h]

end Verif.Props
