import Verif.Lemmas.Config
import Verif.Spec.Env
/-! # Lemmas about trimming and the environment layer -/
namespace Verif
open Spec

theorem isWhite_iff (c : Char) : isWhite c = true ↔ c.toNat ∈ whiteSpace := by
  unfold isWhite whiteSpace
  generalize c.toNat = n
  simp only [Bool.or_eq_true, Bool.and_eq_true, decide_eq_true_eq, beq_iff_eq, List.mem_cons, List.not_mem_nil, or_false]
  omega

theorem dropWhile_spec {α : Type} (p : α → Bool) (l : List α) :
    ∃ pre, l = pre ++ l.dropWhile p ∧ (∀ c ∈ pre, p c = true) ∧ ∀ c, (l.dropWhile p).head? = some c → p c = false := by
  induction l with
  | nil => exact ⟨[], rfl, by simp, by simp⟩
  | cons a l ih =>
    by_cases h : p a = true
    · obtain ⟨pre, h1, h2, h3⟩ := ih
      refine ⟨a :: pre, ?_, ?_, ?_⟩
      · rw [List.dropWhile_cons, if_pos h, List.cons_append, ← h1]
      · intro c hc
        rcases List.mem_cons.1 hc with rfl | hc
        · exact h
        · exact h2 c hc
      · rw [List.dropWhile_cons, if_pos h]; exact h3
    · refine ⟨[], ?_, by simp, ?_⟩
      · rw [List.dropWhile_cons, if_neg h]; rfl
      · intro c hc
        rw [List.dropWhile_cons, if_neg h] at hc
        simp at hc; subst hc; simpa using h

theorem dropWhile_of {α : Type} (p : α → Bool) (pre r : List α) (h : ∀ c ∈ pre, p c = true)
    (hr : ∀ c, r.head? = some c → p c = false) : (pre ++ r).dropWhile p = r := by
  induction pre with
  | nil =>
    cases r with
    | nil => rfl
    | cons a r => rw [List.nil_append, List.dropWhile_cons, if_neg]; simp [hr a rfl]
  | cons a pre ih =>
    rw [List.cons_append, List.dropWhile_cons, if_pos (h a (by simp))]
    exact ih (fun c hc => h c (by simp [hc]))

theorem trimChars_spec (l : List Char) :
    ∃ a r, l = a ++ trimChars l ++ r ∧ (∀ c ∈ a, isWhite c = true) ∧ (∀ c ∈ r, isWhite c = true) ∧
      (∀ c, (trimChars l).head? = some c → isWhite c = false) ∧ (∀ c, (trimChars l).getLast? = some c → isWhite c = false) := by
  obtain ⟨a, h1, h2, h3⟩ := dropWhile_spec isWhite l
  obtain ⟨r, g1, g2, g3⟩ := dropWhile_spec isWhite (l.dropWhile isWhite).reverse
  have e : l.dropWhile isWhite = trimChars l ++ r.reverse := by
    unfold trimChars
    rw [← List.reverse_append, ← g1, List.reverse_reverse]
  refine ⟨a, r.reverse, ?_, h2, ?_, ?_, ?_⟩
  · rw [List.append_assoc, ← e, ← h1]
  · intro c hc; exact g2 c (List.mem_reverse.1 hc)
  · intro c hc
    apply h3 c
    rw [e, List.head?_append, hc]; rfl
  · intro c hc
    apply g3 c
    unfold trimChars at hc
    rw [List.getLast?_reverse] at hc; exact hc

theorem trimChars_of {a t r : List Char} (h2 : ∀ c ∈ a, isWhite c = true) (h3 : ∀ c ∈ r, isWhite c = true)
    (h4 : ∀ c, t.head? = some c → isWhite c = false) (h5 : ∀ c, t.getLast? = some c → isWhite c = false) :
    trimChars (a ++ t ++ r) = t := by
  unfold trimChars
  cases t with
  | nil =>
    have : (a ++ [] ++ r).dropWhile isWhite = [] := by
      rw [List.append_nil]
      have := dropWhile_of isWhite (a ++ r) [] (by intro c hc; rcases List.mem_append.1 hc with hc | hc; exacts [h2 c hc, h3 c hc]) (by simp)
      rwa [List.append_nil] at this
    rw [this]; rfl
  | cons x t =>
    rw [List.append_assoc, dropWhile_of isWhite a _ h2 (by intro c hc; exact h4 c (by simpa using hc)), List.reverse_append,
      dropWhile_of isWhite r.reverse _ (by intro c hc; exact h3 c (List.mem_reverse.1 hc)), List.reverse_reverse]
    intro c hc
    rw [List.head?_reverse] at hc; exact h5 c hc

theorem trimStr_iff (s t : String) : trimStr s = t ↔ Trimmed s t := by
  unfold trimStr Trimmed
  simp only [← isWhite_iff, Bool.not_eq_true]
  constructor
  · rintro rfl
    obtain ⟨a, r, h1, h2, h3, h4, h5⟩ := trimChars_spec s.toList
    refine ⟨⟨a, r, ?_, h2, h3⟩, ?_, ?_⟩
    · rw [String.toList_ofList]; exact h1
    · rw [String.toList_ofList]; exact h4
    · rw [String.toList_ofList]; exact h5
  · rintro ⟨⟨a, r, h1, h2, h3⟩, h4, h5⟩
    rw [h1, trimChars_of h2 h3 h4 h5, String.ofList_toList]

theorem times_succ (n : Nat) (P : List Char) : times (n + 1) P = P ++ times n P := by
  simp [times, List.replicate_succ]

theorem stripAll_spec (pre : List Char) (hne : pre ≠ []) : ∀ (fuel : Nat) (l : List Char), l.length ≤ fuel →
    ¬ pre <+: stripAll fuel pre l ∧ ∃ n, l = times n pre ++ stripAll fuel pre l := by
  intro fuel
  induction fuel with
  | zero =>
    intro l hl
    have : l = [] := List.length_eq_zero_iff.1 (by omega)
    subst this
    refine ⟨?_, 0, rfl⟩
    intro h; exact hne (List.prefix_nil.1 h)
  | succ fuel ih =>
    intro l hl
    rw [stripAll]
    by_cases h : pre.isPrefixOf l = true
    · rw [if_pos h]
      obtain ⟨r, rfl⟩ := List.isPrefixOf_iff_prefix.1 h
      rw [List.drop_left]
      have hp : 0 < pre.length := List.length_pos_iff.2 hne
      obtain ⟨h1, n, h2⟩ := ih r (by simp at hl; omega)
      refine ⟨h1, n + 1, ?_⟩
      rw [times_succ, List.append_assoc, ← h2]
    · rw [if_neg h]
      refine ⟨?_, 0, rfl⟩
      intro h'; exact h (List.isPrefixOf_iff_prefix.2 h')

theorem times_unique {P k k' : List Char} (_hP : P ≠ []) (h : ¬ P <+: k) (h' : ¬ P <+: k') :
    ∀ n m, times n P ++ k = times m P ++ k' → n = m ∧ k = k' := by
  intro n
  induction n with
  | zero =>
    intro m e
    cases m with
    | zero => exact ⟨rfl, e⟩
    | succ m =>
      rw [times_succ, List.append_assoc] at e
      exact absurd ⟨_, e.symm⟩ h
  | succ n ih =>
    intro m e
    cases m with
    | zero =>
      rw [times_succ, List.append_assoc] at e
      exact absurd ⟨_, e⟩ h'
    | succ m =>
      rw [times_succ, times_succ, List.append_assoc, List.append_assoc] at e
      obtain ⟨h1, h2⟩ := ih m (List.append_cancel_left e)
      exact ⟨by omega, h2⟩

/-- What one round of the loop does, in the words of the specification. -/
theorem envStep_spec (P : String) (hP : P ≠ "") (m : Entries) (var : OsStr × OsStr) :
    (∀ k s, Lands P var k → HasText var s → Layer.envStep P m var = hmInsert m k (.string s)) ∧
    ((¬ ∃ k s, Lands P var k ∧ HasText var s) → Layer.envStep P m var = m) := by
  have hne : P.toList ≠ [] := by
    intro h; apply hP; rw [← String.ofList_toList (s := P), h]
  constructor
  · rintro k s ⟨name, t, h1, h2, h3, n, hn, h4⟩ hs
    have hpre : P.toList.isPrefixOf t.toList = true := by
      rw [List.isPrefixOf_iff_prefix, h4]
      obtain ⟨n', rfl⟩ : ∃ n', n = n' + 1 := ⟨n - 1, by omega⟩
      rw [times_succ, List.append_assoc]; exact ⟨_, rfl⟩
    have hk : trimStartMatches t P = k := by
      unfold trimStartMatches
      obtain ⟨g1, n', g2⟩ := stripAll_spec P.toList hne _ t.toList (Nat.le_refl _)
      have := (times_unique hne g1 h3 n' n (by rw [← g2, h4])).2
      rw [this, String.ofList_toList]
    unfold Layer.envStep HasText at *
    rw [h1, osToStr_os, hs, osToStr_os]
    simp only [(trimStr_iff name t).2 h2, hpre, if_true, hk]
  · intro hno
    unfold Layer.envStep
    split
    · rfl
    · rename_i name hname
      dsimp only
      split
      · rename_i hpre
        split
        · rfl
        · rename_i s hs
          exfalso
          apply hno
          refine ⟨trimStartMatches (trimStr name) P, s, ⟨name, trimStr name, osToStr_eq.1 hname, (trimStr_iff _ _).1 rfl, ?_⟩,
            osToStr_eq.1 hs⟩
          unfold trimStartMatches
          obtain ⟨g1, n, g2⟩ := stripAll_spec P.toList hne _ (trimStr name).toList (Nat.le_refl _)
          rw [String.toList_ofList]
          refine ⟨g1, n, ?_, g2⟩
          cases n with
          | zero =>
            exfalso
            apply g1
            rw [show times 0 P.toList = [] from rfl, List.nil_append] at g2
            rw [← g2]; exact List.isPrefixOf_iff_prefix.1 hpre
          | succ n => omega
      · rfl

theorem lands_unique {P : String} (hP : P ≠ "") {var : OsStr × OsStr} {k k' : String} (h : Lands P var k)
    (h' : Lands P var k') : k = k' := by
  have hne : P.toList ≠ [] := by
    intro h; apply hP; rw [← String.ofList_toList (s := P), h]
  obtain ⟨name, t, h1, h2, h3, n, hn, h4⟩ := h
  obtain ⟨name', t', g1, g2, g3, m, hm, g4⟩ := h'
  have e1 : name = name' := by
    have := osToStr_os name
    rw [← h1, g1, osToStr_os] at this
    exact (Option.some.inj this).symm
  subst e1
  have e2 : t = t' := by rw [← (trimStr_iff _ _).2 h2, (trimStr_iff _ _).2 g2]
  subst e2
  have := (times_unique hne h3 g3 n m (by rw [← h4, g4])).2
  rw [← String.ofList_toList (s := k), this, String.ofList_toList]

theorem hasText_unique {var : OsStr × OsStr} {s t : String} (h : HasText var s) (h' : HasText var t) : s = t := by
  have := osToStr_os s
  unfold HasText at h h'
  rw [← h, h', osToStr_os] at this
  exact (Option.some.inj this).symm

/-- Looking up a key in the map the loop builds. -/
theorem foldl_envStep_get (P : String) (hP : P ≠ "") (k : String) (env : List (OsStr × OsStr)) : ∀ m : Entries,
    (∀ before var after s, env = before ++ var :: after → Lands P var k → HasText var s →
      (∀ a ∈ after, ¬ (Lands P a k ∧ ∃ t, HasText a t)) →
      hmGet (env.foldl (Layer.envStep P) m) k = some (.string s)) ∧
    ((∀ a ∈ env, ¬ (Lands P a k ∧ ∃ t, HasText a t)) → hmGet (env.foldl (Layer.envStep P) m) k = hmGet m k) := by
  induction env with
  | nil =>
    intro m
    refine ⟨?_, fun _ => rfl⟩
    intro before var after s h; simp at h
  | cons a env ih =>
    intro m
    rw [List.foldl_cons]
    constructor
    · intro before var after s h hl hs hafter
      cases before with
      | nil =>
        simp at h
        obtain ⟨rfl, rfl⟩ := h
        rw [(ih _).2 hafter, (envStep_spec P hP m a).1 k s hl hs, hmGet_insert, if_pos rfl]
      | cons b before =>
        simp at h
        exact (ih _).1 before var after s h.2 hl hs hafter
    · intro hno
      rw [(ih _).2 (fun x hx => hno x (by simp [hx]))]
      by_cases h : ∃ k s, Lands P a k ∧ HasText a s
      · obtain ⟨k', s, hl, hs⟩ := h
        rw [(envStep_spec P hP m a).1 k' s hl hs, hmGet_insert, if_neg]
        rintro rfl
        exact hno a (by simp) ⟨hl, s, hs⟩
      · rw [(envStep_spec P hP m a).2 h]

theorem exists_last {α : Type} (q : α → Prop) (l : List α) :
    (∀ a ∈ l, ¬ q a) ∨ ∃ before a after, l = before ++ a :: after ∧ q a ∧ ∀ b ∈ after, ¬ q b := by
  induction l with
  | nil => left; simp
  | cons x l ih =>
    rcases ih with h | ⟨before, a, after, rfl, h⟩
    · by_cases hx : q x
      · exact Or.inr ⟨[], x, l, rfl, hx, h⟩
      · left
        intro a ha
        rcases List.mem_cons.1 ha with rfl | ha
        · exact hx
        · exact h a ha
    · exact Or.inr ⟨x :: before, a, after, rfl, h⟩

end Verif
