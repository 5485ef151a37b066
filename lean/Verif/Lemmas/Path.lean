import Verif.Spec.Finder
/-! # Lemmas about paths -/
namespace Verif
open Spec

theorem takeWhile_append_stop {α : Type} (p : α → Bool) (l r : List α) (h : ∀ x ∈ l, p x = true)
    (hr : ∀ x, r.head? = some x → p x = false) : (l ++ r).takeWhile p = l := by
  induction l with
  | nil =>
    cases r with
    | nil => rfl
    | cons x r => simp [hr x rfl]
  | cons a l ih => simp [h a (by simp), ih (fun x hx => h x (by simp [hx]))]

theorem dropWhile_append_stop {α : Type} (p : α → Bool) (l r : List α) (h : ∀ x ∈ l, p x = true)
    (hr : ∀ x, r.head? = some x → p x = false) : (l ++ r).dropWhile p = r := by
  induction l with
  | nil =>
    cases r with
    | nil => rfl
    | cons x r => simp [hr x rfl]
  | cons a l ih => simp [h a (by simp), ih (fun x hx => h x (by simp [hx]))]

theorem head_dropWhile {α : Type} (p : α → Bool) (l : List α) (x : α) (h : (l.dropWhile p).head? = some x) :
    p x = false := by
  induction l with
  | nil => cases h
  | cons a l ih =>
    rw [List.dropWhile_cons] at h
    split at h
    · exact ih h
    · simp only [List.head?_cons, Option.some.injEq] at h; subst h; rename_i hh; exact Bool.eq_false_iff.2 hh

theorem mem_takeWhile {α : Type} (p : α → Bool) (l : List α) (x : α) (h : x ∈ l.takeWhile p) : p x = true := by
  induction l with
  | nil => cases h
  | cons a l ih =>
    rw [List.takeWhile_cons] at h
    split at h
    · rcases List.mem_cons.1 h with rfl | h
      · assumption
      · exact ih h
    · cases h

/-- A file name: what can be the last, normal component of a path. -/
structure NameLike (n : OsStr) : Prop where
  ne : n ≠ []
  notDot : n ≠ [dot]
  notDots : n ≠ [dot, dot]
  noSep : sep ∉ n

/-- The part of a path before its file name. -/
def DirLike (d : OsStr) : Prop := d = [] ∨ d.getLast? = some sep

theorem trimRev_name {n r : OsStr} (hn : NameLike n) : trimRev (n.reverse ++ r) = n.reverse ++ r := by
  obtain ⟨h1, h2, h3, h4⟩ := hn
  have hne : n.reverse ≠ [] := by simpa using h1
  obtain ⟨x, t, e⟩ := List.exists_cons_of_ne_nil hne
  have hx : x ≠ sep := fun h => h4 (by rw [← List.mem_reverse, e, h]; simp)
  rw [e, List.cons_append]
  cases t with
  | nil =>
    have hxd : x ≠ dot := by
      rintro rfl
      apply h2
      have := congrArg List.reverse e
      simpa using this
    unfold trimRev
    split
    · rename_i h; exact absurd (List.cons.inj h).1 hx
    · rename_i h; exact absurd (List.cons.inj h).1 hxd
    · rfl
  | cons y t =>
    have hy : y ≠ sep := fun h => h4 (by rw [← List.mem_reverse, e, h]; simp)
    unfold trimRev
    split
    · rename_i h; exact absurd (List.cons.inj h).1 hx
    · rename_i h; exact absurd (List.cons.inj (List.cons.inj h).2).1 hy
    · rfl

theorem dirLike_rev {d : OsStr} (hd : DirLike d) : ∀ x, d.reverse.head? = some x → decide (x ≠ sep) = false := by
  intro x hx
  rw [List.head?_reverse] at hx
  rcases hd with rfl | h
  · cases hx
  · rw [h] at hx; cases hx; decide

/-- Directory part and file name put together split again into the two. -/
theorem splitFileName_append {d n : OsStr} (hd : DirLike d) (hn : NameLike n) :
    splitFileName (d ++ n) = some (d, n) := by
  unfold splitFileName
  have hns : ∀ x ∈ n.reverse, decide (x ≠ sep) = true := by
    intro x hx
    rw [List.mem_reverse] at hx
    simp; rintro rfl; exact hn.noSep hx
  simp only [List.reverse_append, trimRev_name hn,
    takeWhile_append_stop _ _ _ hns (dirLike_rev hd), dropWhile_append_stop _ _ _ hns (dirLike_rev hd),
    List.reverse_reverse]
  rw [if_neg]
  rintro (h | h | h)
  · exact hn.ne h
  · exact hn.notDot h
  · exact hn.notDots h

/-- The two parts found by `splitFileName` are a directory part and a file name. -/
theorem splitFileName_parts {p d n : OsStr} (h : splitFileName p = some (d, n)) : DirLike d ∧ NameLike n := by
  unfold splitFileName at h
  simp only at h
  split at h
  · cases h
  · rename_i hc
    simp only [Option.some.injEq, Prod.mk.injEq] at h
    obtain ⟨rfl, rfl⟩ := h
    constructor
    · unfold DirLike
      by_cases he : ((trimRev p.reverse).dropWhile (fun x => decide (x ≠ sep))).reverse = []
      · exact Or.inl he
      · right
        rw [List.getLast?_reverse]
        have hne : ((trimRev p.reverse).dropWhile (fun x => decide (x ≠ sep))) ≠ [] := by
          intro h; exact he (by rw [h]; rfl)
        obtain ⟨x, t, e⟩ := List.exists_cons_of_ne_nil hne
        have := head_dropWhile (fun x => decide (x ≠ sep)) (trimRev p.reverse) x (by rw [e]; rfl)
        rw [e]; simp at this; simp [this]
    · refine ⟨fun h => hc (Or.inl h), fun h => hc (Or.inr (Or.inl h)), fun h => hc (Or.inr (Or.inr h)), ?_⟩
      intro h
      rw [List.mem_reverse] at h
      have := mem_takeWhile _ _ _ h
      simp at this

theorem splitDot_append {s t : OsStr} (hs : s ≠ []) (ht : dot ∉ t) : splitDot (s ++ dot :: t) = (s, some t) := by
  unfold splitDot
  have hr : (s ++ dot :: t).reverse = t.reverse ++ (dot :: s.reverse) := by simp
  have hts : ∀ x ∈ t.reverse, decide (x ≠ dot) = true := by
    intro x hx; rw [List.mem_reverse] at hx; simp; rintro rfl; exact ht hx
  have hst : ∀ x, (dot :: s.reverse).head? = some x → decide (x ≠ dot) = false := by
    intro x hx; simp at hx; simp [hx]
  simp only [hr, takeWhile_append_stop _ _ _ hts hst, dropWhile_append_stop _ _ _ hts hst, List.reverse_reverse]
  rw [if_neg (by simpa using hs)]

theorem splitDot_noDot {n : OsStr} (h : dot ∉ n) : splitDot n = (n, none) := by
  unfold splitDot
  have hd : n.reverse.dropWhile (fun x => decide (x ≠ dot)) = [] := by
    have := dropWhile_append_stop (fun x => decide (x ≠ dot)) n.reverse []
      (by intro x hx; rw [List.mem_reverse] at hx; simp; rintro rfl; exact h hx) (by intro x hx; cases hx)
    simpa using this
  simp only [hd]

theorem splitDot_firstDot {n : OsStr} (h : dot ∉ n) : splitDot (dot :: n) = (dot :: n, none) := by
  unfold splitDot
  have hr : (dot :: n).reverse = n.reverse ++ [dot] := by simp
  have hts : ∀ x ∈ n.reverse, decide (x ≠ dot) = true := by
    intro x hx; rw [List.mem_reverse] at hx; simp; rintro rfl; exact h hx
  have hst : ∀ x, [dot].head? = some x → decide (x ≠ dot) = false := by
    intro x hx; simp at hx; simp [hx]
  simp only [hr, dropWhile_append_stop _ _ _ hts hst]
  rfl

/-- Every file name is of one of the two forms. -/
theorem splitDot_cases (n : OsStr) :
    ((dot ∉ n ∨ ∃ m, n = dot :: m ∧ dot ∉ m) ∧ splitDot n = (n, none)) ∨
    ∃ s t, s ≠ [] ∧ dot ∉ t ∧ n = s ++ dot :: t ∧ splitDot n = (s, some t) := by
  by_cases h : dot ∈ n
  · -- split at the last dot
    have : ∃ s t, n = s ++ dot :: t ∧ dot ∉ t := by
      have hr : dot ∈ n.reverse := by simpa using h
      obtain ⟨t, s, e, hnot⟩ := List.append_of_mem hr |>.elim (fun a ⟨b, e⟩ => by
        exact List.eq_append_cons_of_mem hr)
      exact ⟨s.reverse, t.reverse, by
        have := congrArg List.reverse e
        simpa using this, by simpa using hnot⟩
    obtain ⟨s, t, rfl, ht⟩ := this
    by_cases hs : s = []
    · subst hs
      left
      exact ⟨Or.inr ⟨t, rfl, ht⟩, splitDot_firstDot ht⟩
    · right
      exact ⟨s, t, hs, ht, rfl, splitDot_append hs ht⟩
  · left; exact ⟨Or.inl h, splitDot_noDot h⟩

theorem stem_ne {n : OsStr} (h : n ≠ []) : (splitDot n).1 ≠ [] := by
  rcases splitDot_cases n with ⟨-, e⟩ | ⟨s, t, hs, -, -, e⟩
  · rw [e]; exact h
  · rw [e]; exact hs

theorem stem_noSep {n : OsStr} (h : sep ∉ n) : sep ∉ (splitDot n).1 := by
  rcases splitDot_cases n with ⟨-, e⟩ | ⟨s, t, hs, -, e', e⟩
  · rw [e]; exact h
  · rw [e]; intro hm; apply h; rw [e']; simp [hm]

theorem nameLike_withExt {s e : OsStr} (hs : s ≠ []) (hss : sep ∉ s) (he : e ≠ []) (hes : sep ∉ e) (hed : dot ∉ e) :
    NameLike (s ++ dot :: e) := by
  obtain ⟨x, s', rfl⟩ := List.exists_cons_of_ne_nil hs
  obtain ⟨y, e', rfl⟩ := List.exists_cons_of_ne_nil he
  refine ⟨by simp, by simp, ?_, ?_⟩
  · intro h
    have hl := congrArg List.length h
    simp at hl
    omega
  · intro h
    simp only [List.mem_append, List.mem_cons] at h hss hes
    rcases h with h | h | h
    · exact hss h
    · exact absurd h (by decide)
    · exact hes h

/-- After `with_extension` a path that has a file name has that extension. -/
theorem pathExtension_replace {p e : OsStr} (hp : splitFileName p ≠ none) (he : e ≠ []) (hes : sep ∉ e)
    (hed : dot ∉ e) : pathExtension (replaceExtension p e) = some e := by
  obtain ⟨⟨d, n⟩, h⟩ := Option.ne_none_iff_exists'.1 hp
  obtain ⟨hd, hn⟩ := splitFileName_parts h
  have hs := stem_ne hn.ne
  have hss := stem_noSep hn.noSep
  simp only [replaceExtension, h, if_neg he, List.append_assoc, pathExtension,
    splitFileName_append hd (nameLike_withExt hs hss he hes hed), Option.bind_some, splitDot_append hs hed]

theorem os_inj {s t : String} (h : os s = os t) : s = t := by
  unfold os at h
  have h := (List.map_inj_right (fun a b h => OsChar.chr.inj h)).1 h
  exact String.toList_inj.1 h

theorem os_append (s t : String) : os (s ++ t) = os s ++ os t := by simp [os]

theorem mem_os_dot (s : String) : dot ∈ os s ↔ '.' ∈ s.toList := by simp [dot, os]
theorem mem_os_sep (s : String) : sep ∈ os s ↔ '/' ∈ s.toList := by simp [sep, os]

theorem nameLike_os {name : String} (h : PlainName name) : NameLike (os name) := by
  refine ⟨fun e => h.ne (os_inj e), fun e => h.notDot (os_inj e), fun e => h.notDots (os_inj e), ?_⟩
  rw [mem_os_sep]; exact h.noSep

/-- The directory part that `join` puts before a relative name. -/
def joinDir (folder : OsStr) : OsStr := if folder = [] ∨ folder.getLast? = some sep then folder else folder ++ [sep]

theorem dirLike_joinDir (folder : OsStr) : DirLike (joinDir folder) := by
  unfold joinDir DirLike
  split
  · assumption
  · right; simp

theorem pathJoin_eq {folder n : OsStr} (hn : n.head? ≠ some sep) : pathJoin folder n = joinDir folder ++ n := by
  unfold pathJoin joinDir
  rw [if_neg hn]
  split <;> simp

theorem NameLike.head {n : OsStr} (h : NameLike n) : n.head? ≠ some sep := by
  intro e
  exact h.noSep (List.mem_of_mem_head? e)

theorem splitFileName_join {folder : OsStr} {name : String} (h : PlainName name) :
    splitFileName (pathJoin folder (os name)) = some (joinDir folder, os name) := by
  have hn := nameLike_os h
  rw [pathJoin_eq hn.head, splitFileName_append (dirLike_joinDir folder) hn]

end Verif
