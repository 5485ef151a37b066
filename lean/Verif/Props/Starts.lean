import Verif.Spec.Starts
import Verif.Props.MacroRace
import Verif.Props.Writers
import Verif.Props.EndToEnd
import Verif.Props.TomlMacro
/-! # C101: several processes start for the first time at once -/
namespace Verif.Props
open Spec

/-- The handler determines what it prints. -/
theorem textHandler_print {cd cd' : Codec} (h : textHandler cd = textHandler cd') {v : Value} {text : String}
    (hp : cd.print v.toData = .ok text) : cd'.print v.toData = .ok text := by
  let w0 : World := ⟨fun _ => 0, fun _ => .absent none, fun _ => none, [], none, none⟩
  have h1 : (textHandler cd).write w0 (os "") v = (textHandler cd').write w0 (os "") v := by rw [h]
  have e1 : ∀ t : String, w0.fsWrite (os "") t = (.ok (), (w0.put 0 (.file [] none none)).appendBytes 0 (utf8 t)) := fun t => rfl
  simp only [textHandler, hp, e1] at h1
  cases hp' : cd'.print v.toData with
  | error msg => rw [hp'] at h1; simp at h1
  | ok t =>
    rw [hp'] at h1
    simp only [e1, Prod.mk.injEq, true_and] at h1
    have h2 := congrArg (fun w => w.disk 0) h1
    simp only [World.appendBytes, World.put, if_true, List.nil_append, Node.file.injEq, and_true] at h2
    rw [utf8_inj h2]

section
variable {ι : Type} [DecidableEq ι] {b : Build} {fm : Formats} {prog : MacroArgs} {defaults : ι → List (String × Value)} {w : World}
  {s : Nat → (ι × Nat → Writer) × World} {c : ι → Config} {writes : ι → List Wrote}

theorem startsStep_same {st st' : (ι × Nat → Writer) × World} (h : StartsStep writes st st') : SameEnv st.2 st'.2 := by
  cases h with
  | opens i k h1 h2 h3 h4 h5 => exact (onlyAt_open h5).1.1
  | writes i k h1 h2 h3 => exact (onlyAt_writeAt _ _ _ _).1

theorem together_same (h : Together b fm prog defaults w s c writes) (t : Nat) : SameEnv w (s t).2 := by
  induction t with
  | zero => rw [h.start]; exact SameEnv.refl w
  | succ t ih =>
    rcases h.step t with e | st
    · rw [e]; exact ih
    · exact ih.trans (startsStep_same st)

theorem writeAt_exists (u : World) (slot off : Nat) (piece : List UInt8) (p : OsStr) : (u.writeAt slot off piece).pathExists p = u.pathExists p := by
  unfold World.writeAt
  split
  · rename_i hd
    unfold World.pathExists World.put
    dsimp only
    by_cases e : u.locate p = slot
    · rw [if_pos e, e, hd]
    · rw [if_neg e]
  · rfl

theorem open_exists {u u' : World} {q : OsStr} (h : u.openTrunc q = .ok u') (p : OsStr) (hp : u.pathExists p = true) : u'.pathExists p = true := by
  obtain ⟨h1, r, h2, -⟩ := onlyAt_open h
  by_cases e : u.locate p = u.locate q
  · unfold World.pathExists; rw [h1.locate, e, h2]
  · rw [pathExists_congr (w := u) (by rw [h1.locate]; exact h1.2 _ e)]; exact hp

/-- Nobody removes anything. -/
theorem together_exists (h : Together b fm prog defaults w s c writes) {t t' : Nat} (ht : t ≤ t') {p : OsStr}
    (hp : (s t).2.pathExists p = true) : (s t').2.pathExists p = true := by
  induction t', ht using Nat.le_induction with
  | base => exact hp
  | succ n _ ih =>
    rcases h.step n with e | st
    · rw [e]; exact ih
    · generalize s n = a at st ih
      generalize s (n + 1) = a' at st
      cases st with
      | opens i k h1 h2 h3 h4 h5 => exact open_exists h5 p ih
      | writes i k h1 h2 h3 => dsimp only; rw [writeAt_exists]; exact ih

/-- The writer is at this place. -/
def WriterAt (w : World) (writes : ι → List Wrote) (slot : Nat) (x : ι × Nat) : Prop :=
  ∃ o cd p, (writes x.1)[x.2]? = some o ∧ o.through = .file (textHandler cd) p ∧ w.locate p = slot

/-- The history up to `t`, seen at one place alone: a run of writers. -/
def SeenAt (w : World) (writes : ι → List Wrote) (q : OsStr) (texts : ι × Nat → String) (st : (ι × Nat → Writer) × World)
    (acts : List (Act (ι × Nat))) : Prop :=
  ∃ ph' w', WritersRun q texts (fun _ => .start, w) acts (ph', w') ∧
    (∀ x, WriterAt w writes (w.locate q) x → ph' x = st.1 x) ∧ (∀ x, ¬ WriterAt w writes (w.locate q) x → ph' x = .start) ∧
    w'.disk (w.locate q) = st.2.disk (w.locate q) ∧ w'.locate = w.locate

/-- The texts are those of the writers at this place. -/
def TextsAt (w : World) (writes : ι → List Wrote) (q : OsStr) (texts : ι × Nat → String) : Prop :=
  ∀ (x : ι × Nat) (o : Wrote) (cd : Codec) (p : OsStr) (text : String), (writes x.1)[x.2]? = some o → o.through = .file (textHandler cd) p →
    w.locate p = w.locate q → cd.print o.value.toData = .ok text → text = texts x

theorem seenAt_zero (h : Together b fm prog defaults w s c writes) (q : OsStr) (texts : ι × Nat → String) : SeenAt w writes q texts (s 0) [] :=
  ⟨_, _, .nil, by rw [h.start]; simp, fun _ _ => rfl, by rw [h.start], rfl⟩

/-- A writer that has begun does not go back. -/
theorem together_begun (h : Together b fm prog defaults w s c writes) (x : ι × Nat) {t t' : Nat} (ht : t ≤ t') (hx : (s t).1 x ≠ .start) :
    (s t').1 x ≠ .start := by
  induction t', ht using Nat.le_induction with
  | base => exact hx
  | succ n _ ih =>
    rcases h.step n with e | st
    · rw [e]; exact ih
    · generalize s n = a at st ih
      generalize s (n + 1) = a' at st
      cases st with
      | opens i k h1 h2 h3 h4 h5 =>
        dsimp only at *
        by_cases e : x = (i, k)
        · subst e; simp
        · rw [Function.update_of_ne e]; exact ih
      | writes i k h1 h2 h3 =>
        dsimp only at *
        by_cases e : x = (i, k)
        · subst e; simp
        · rw [Function.update_of_ne e]; exact ih

/-- One more step, seen at one place. -/
theorem seenAt_step (h : Together b fm prog defaults w s c writes) (q : OsStr) {texts : ι × Nat → String} (hT : TextsAt w writes q texts) (t : Nat)
    {acts : List (Act (ι × Nat))} (hs : SeenAt w writes q texts (s t) acts) :
    ∃ more, SeenAt w writes q texts (s (t + 1)) (acts ++ more) ∧
      ((∀ y, Act.opens y ∉ more) ∨ ∃ y, more = [.opens y] ∧ (s t).1 y = .start ∧ (s (t + 1)).1 y ≠ .start ∧ WriterAt w writes (w.locate q) y) ∧
      (∀ y, WriterAt w writes (w.locate q) y → (s t).1 y = .start → (s (t + 1)).1 y ≠ .start → more = [.opens y]) := by
  obtain ⟨ph', w', h1, h2, h3, h4, h5⟩ := hs
  have hsame := together_same h t
  rcases h.step t with e | st
  · rw [e]
    exact ⟨[], ⟨ph', w', by rw [List.append_nil]; exact h1, h2, h3, h4, h5⟩, Or.inl (by simp), fun y _ hy hy' => absurd hy hy'⟩
  · generalize s t = a at st h2 h4 hsame
    generalize s (t + 1) = a' at st
    cases st with
    | @opens ph u u1 i k o cd p text g1 g2 g3 g4 g5 =>
      dsimp only at *
      have hl : u.locate = w.locate := hsame.locate
      by_cases e : w.locate p = w.locate q
      · have hat : WriterAt w writes (w.locate q) (i, k) := ⟨o, cd, p, g1, g2, e⟩
        have htext := hT (i, k) o cd p text g1 g2 e g3
        subst htext
        obtain ⟨r, k1⟩ : ∃ w1, w'.openTrunc q = .ok w1 := by
          unfold World.openTrunc at g5 ⊢
          rw [hl, e] at g5
          rw [h5, h4]
          revert g5
          cases hd : u.disk (w.locate q) with
          | absent r => cases r <;> simp
          | file bs r1 r2 => cases r2 <;> simp
          | other code => simp
        refine ⟨[.opens (i, k)], ⟨_, r, .snoc h1 (.opens (i, k) (by rw [h2 _ hat]; exact g4) k1), ?_, ?_, ?_, ?_⟩,
          Or.inr ⟨(i, k), rfl, g4, by simp, hat⟩, ?_⟩
        · intro x hx
          try dsimp only
          by_cases ex : x = (i, k)
          · subst ex; simp
          · rw [Function.update_of_ne ex, Function.update_of_ne ex]; exact h2 x hx
        · intro x hx
          try dsimp only
          by_cases ex : x = (i, k)
          · subst ex; exact absurd hat hx
          · rw [Function.update_of_ne ex]; exact h3 x hx
        · unfold World.openTrunc at g5 k1
          rw [hl, e] at g5
          rw [h5, h4] at k1
          revert g5 k1
          cases hd : u.disk (w.locate q) with
          | absent r =>
            cases r with
            | some _ => simp
            | none => dsimp only; intro g5 k1; cases g5; cases k1; simp [World.put]
          | file bs r1 r2 =>
            cases r2 with
            | some _ => simp
            | none => dsimp only; intro g5 k1; cases g5; cases k1; simp [World.put]
          | other code => simp
        · rw [(onlyAt_open k1).1.locate]; exact h5
        · intro y hy hys hyn
          by_cases ey : y = (i, k)
          · rw [ey]
          · rw [Function.update_of_ne ey] at hyn; exact absurd hys hyn
      · refine ⟨[], ⟨ph', w', by rw [List.append_nil]; exact h1, ?_, h3, ?_, h5⟩, Or.inl (by simp), ?_⟩
        · intro x hx
          try dsimp only
          by_cases ex : x = (i, k)
          · subst ex
            obtain ⟨o', cd', p', k1, k2, k3⟩ := hx
            rw [g1] at k1; cases k1
            rw [g2] at k2
            rw [← (Layer.file.inj k2).2] at k3
            exact absurd k3 e
          · rw [Function.update_of_ne ex]; exact h2 x hx
        · rw [h4, (onlyAt_open g5).1.2 _ (by rw [hl]; exact fun hh => e hh.symm)]
        · intro y hy hys hyn
          by_cases ey : y = (i, k)
          · subst ey
            obtain ⟨o', cd', p', k1, k2, k3⟩ := hy
            rw [g1] at k1; cases k1
            rw [g2] at k2
            rw [← (Layer.file.inj k2).2] at k3
            exact absurd k3 e
          · rw [Function.update_of_ne ey] at hyn; exact absurd hys hyn
    | @writes ph u i k o cd p off piece rest g1 g2 g3 =>
      dsimp only at *
      have hl : u.locate = w.locate := hsame.locate
      by_cases e : w.locate p = w.locate q
      · have hat : WriterAt w writes (w.locate q) (i, k) := ⟨o, cd, p, g1, g2, e⟩
        refine ⟨[.writes (i, k)], ⟨_, _, .snoc h1 (.writes (i, k) (piece := piece) (by rw [h2 _ hat]; exact g3)), ?_, ?_, ?_, ?_⟩,
          Or.inl (by simp), ?_⟩
        · intro x hx
          try dsimp only
          by_cases ex : x = (i, k)
          · subst ex; simp
          · rw [Function.update_of_ne ex, Function.update_of_ne ex]; exact h2 x hx
        · intro x hx
          try dsimp only
          by_cases ex : x = (i, k)
          · subst ex; exact absurd hat hx
          · rw [Function.update_of_ne ex]; exact h3 x hx
        · rw [hl, e, h5]
          unfold World.writeAt
          rw [h4]
          cases u.disk (w.locate q) <;> simp [World.put, h4]
        · rw [(onlyAt_writeAt w' (w'.locate q) off piece).locate]; exact h5
        · intro y hy hys hyn
          by_cases ey : y = (i, k)
          · subst ey; rw [g3] at hys; cases hys
          · rw [Function.update_of_ne ey] at hyn; exact absurd hys hyn
      · refine ⟨[], ⟨ph', w', by rw [List.append_nil]; exact h1, ?_, h3, ?_, h5⟩, Or.inl (by simp), ?_⟩
        · intro x hx
          try dsimp only
          by_cases ex : x = (i, k)
          · subst ex
            obtain ⟨o', cd', p', k1, k2, k3⟩ := hx
            rw [g1] at k1; cases k1
            rw [g2] at k2
            rw [← (Layer.file.inj k2).2] at k3
            exact absurd k3 e
          · rw [Function.update_of_ne ex]; exact h2 x hx
        · rw [h4, (onlyAt_writeAt u (u.locate p) off piece).2 _ (by rw [hl]; exact fun hh => e hh.symm)]
        · intro y hy hys hyn
          by_cases ey : y = (i, k)
          · subst ey; rw [g3] at hys; cases hys
          · rw [Function.update_of_ne ey] at hyn; exact absurd hys hyn

/-- More of the history, seen at one place. -/
theorem seenAt_more (h : Together b fm prog defaults w s c writes) (q : OsStr) {texts : ι × Nat → String} (hT : TextsAt w writes q texts) {t t' : Nat}
    (ht : t ≤ t') {acts : List (Act (ι × Nat))} (hs : SeenAt w writes q texts (s t) acts) :
    ∃ more, SeenAt w writes q texts (s t') (acts ++ more) ∧
      ∀ y, Act.opens y ∈ more → WriterAt w writes (w.locate q) y ∧ (s t).1 y = .start ∧ (s t').1 y ≠ .start := by
  induction t', ht using Nat.le_induction with
  | base => exact ⟨[], by rw [List.append_nil]; exact hs, by simp⟩
  | succ n hn ih =>
    obtain ⟨more, h1, h2⟩ := ih
    obtain ⟨more', h3, h4, -⟩ := seenAt_step h q hT n h1
    refine ⟨more ++ more', by rw [← List.append_assoc]; exact h3, fun y hy => ?_⟩
    rcases List.mem_append.1 hy with hy | hy
    · obtain ⟨k1, k2, k3⟩ := h2 y hy
      exact ⟨k1, k2, together_begun h y (Nat.le_succ n) k3⟩
    · rcases h4 with h4 | ⟨z, rfl, k1, k2, k3⟩
      · exact absurd hy (h4 y)
      · cases List.mem_singleton.1 hy
        refine ⟨k3, ?_, k2⟩
        by_contra hne
        exact together_begun h y hn hne k1

/-- What happens at one place, seen alone. -/
theorem project (h : Together b fm prog defaults w s c writes) (q : OsStr) {texts : ι × Nat → String} (hT : TextsAt w writes q texts) (t : Nat) :
    ∃ acts, SeenAt w writes q texts (s t) acts := by
  obtain ⟨more, h1, -⟩ := seenAt_more h q hT (Nat.zero_le t) (seenAt_zero h q texts)
  exact ⟨_, h1⟩

/-- A place where there was nothing: still nothing, or a file that all may read. -/
theorem together_fresh (h : Together b fm prog defaults w s c writes) (slot : Nat) (hs : ∃ r, w.disk slot = .absent r) (t : Nat) :
    (s t).2.disk slot = w.disk slot ∨ (w.disk slot = .absent none ∧ ∃ bs, (s t).2.disk slot = .file bs none none) := by
  induction t with
  | zero => left; rw [h.start]
  | succ t ih =>
    rcases h.step t with e | st
    · rw [e]; exact ih
    · generalize s t = a at st ih
      generalize s (t + 1) = a' at st
      cases st with
      | @opens ph u u1 i k o cd p text g1 g2 g3 g4 g5 =>
        dsimp only at *
        obtain ⟨k1, r, k2, k3⟩ := onlyAt_open g5
        by_cases e : slot = u.locate p
        · subst e
          rcases ih with ih | ⟨ih, bs, ih'⟩
          · rcases k3 with ⟨k3, rfl⟩ | ⟨bs, k3⟩
            · right; exact ⟨by rw [← ih]; exact k3, _, k2⟩
            · obtain ⟨r', hr⟩ := hs
              rw [ih, hr] at k3; cases k3
          · rcases k3 with ⟨k3, rfl⟩ | ⟨bs', k3⟩
            · rw [ih'] at k3; cases k3
            · rw [ih'] at k3; cases k3
              right; exact ⟨ih, _, k2⟩
        · rw [k1.2 _ e]; exact ih
      | @writes ph u i k o cd p off piece rest g1 g2 g3 =>
        dsimp only at *
        by_cases e : slot = u.locate p
        · subst e
          rcases ih with ih | ⟨ih, bs, ih'⟩
          · left
            obtain ⟨r', hr⟩ := hs
            unfold World.writeAt
            rw [ih, hr]
            dsimp only
            rw [ih, hr]
          · right
            exact ⟨ih, _, writeAt_file ih' off piece⟩
        · rw [(onlyAt_writeAt u (u.locate p) off piece).2 _ e]; exact ih

/-- A place changes only if some writer there has printed its text and opened the file. -/
theorem together_touched (h : Together b fm prog defaults w s c writes) (slot t : Nat) :
    ((s t).2.disk slot = w.disk slot ∧ ∀ x, WriterAt w writes slot x → (s t).1 x = .start) ∨
    ∃ x o cd p text, (writes x.1)[x.2]? = some o ∧ o.through = .file (textHandler cd) p ∧ w.locate p = slot ∧
      cd.print o.value.toData = .ok text ∧ (s t).1 x ≠ .start ∧ (s t).2.pathExists p = true := by
  induction t with
  | zero => left; rw [h.start]; exact ⟨rfl, fun _ _ => rfl⟩
  | succ t ih =>
    have hl : (s t).2.locate = w.locate := (together_same h t).locate
    rcases h.step t with e | st
    · rw [e]; exact ih
    · generalize s t = a at st ih hl
      generalize s (t + 1) = a' at st
      have keep : ∀ (ph : ι × Nat → Writer) (y x : ι × Nat) off rest, ph x ≠ .start → Function.update ph y (Writer.writing off rest) x ≠ .start := by
        intro ph y x off rest hx
        by_cases e : x = y
        · subst e; simp
        · rw [Function.update_of_ne e]; exact hx
      cases st with
      | @opens ph u u1 i k o cd p text g1 g2 g3 g4 g5 =>
        dsimp only at *
        rcases ih with ⟨h1, h2⟩ | ⟨x, o', cd', p', text', k1, k2, k3, k4, k5, k6⟩
        · by_cases e : w.locate p = slot
          · right
            obtain ⟨j1, r, j2, -⟩ := onlyAt_open g5
            exact ⟨(i, k), o, cd, p, text, g1, g2, e, g3, by simp, by unfold World.pathExists; rw [j1.locate, j2]⟩
          · left
            refine ⟨by rw [(onlyAt_open g5).1.2 _ (by rw [hl]; exact fun hh => e hh.symm)]; exact h1, ?_⟩
            intro x hx
            by_cases ex : x = (i, k)
            · subst ex
              obtain ⟨o', cd', p', k1, k2, k3⟩ := hx
              rw [g1] at k1; cases k1
              rw [g2] at k2
              rw [← (Layer.file.inj k2).2] at k3
              exact absurd k3 e
            · rw [Function.update_of_ne ex]; exact h2 x hx
        · right; exact ⟨x, o', cd', p', text', k1, k2, k3, k4, keep _ _ _ _ _ k5, open_exists g5 _ k6⟩
      | @writes ph u i k o cd p off piece rest g1 g2 g3 =>
        dsimp only at *
        rcases ih with ⟨h1, h2⟩ | ⟨x, o', cd', p', text', k1, k2, k3, k4, k5, k6⟩
        · by_cases e : w.locate p = slot
          · have := h2 (i, k) ⟨o, cd, p, g1, g2, e⟩
            rw [g3] at this; cases this
          · left
            refine ⟨by rw [(onlyAt_writeAt u (u.locate p) off piece).2 _ (by rw [hl]; exact fun hh => e hh.symm)]; exact h1, ?_⟩
            intro x hx
            by_cases ex : x = (i, k)
            · subst ex
              obtain ⟨o', cd', p', k1, k2, k3⟩ := hx
              rw [g1] at k1; cases k1
              rw [g2] at k2
              rw [← (Layer.file.inj k2).2] at k3
              exact absurd k3 e
            · rw [Function.update_of_ne ex]; exact h2 x hx
        · right; exact ⟨x, o', cd', p', text', k1, k2, k3, k4, keep _ _ _ _ _ k5, by rw [writeAt_exists]; exact k6⟩

/-- A writer that has begun has printed its text. -/
theorem together_printed (h : Together b fm prog defaults w s c writes) (t : Nat) (i : ι) (k : Nat) (o : Wrote) (cd : Codec) (p : OsStr)
    (ho : (writes i)[k]? = some o) (hth : o.through = .file (textHandler cd) p) (hne : (s t).1 (i, k) ≠ .start) :
    ∃ text, cd.print o.value.toData = .ok text := by
  induction t with
  | zero => rw [h.start] at hne; exact absurd rfl hne
  | succ t ih =>
    rcases h.step t with e | st
    · rw [e] at hne; exact ih hne
    · generalize s t = a at st ih
      generalize s (t + 1) = a' at st hne
      cases st with
      | @opens ph u u1 i' k' o' cd' p' text g1 g2 g3 g4 g5 =>
        dsimp only at *
        by_cases e : (i, k) = (i', k')
        · cases e
          rw [ho] at g1; cases g1
          rw [hth] at g2
          exact ⟨text, textHandler_print (Layer.file.inj g2).1.symm g3⟩
        · rw [Function.update_of_ne e] at hne; exact ih hne
      | @writes ph u i' k' o' cd' p' off piece rest g1 g2 g3 =>
        dsimp only at *
        by_cases e : (i, k) = (i', k')
        · cases e; exact ih (by rw [g3]; simp)
        · rw [Function.update_of_ne e] at hne; exact ih hne

/-- What a process writes: the defaults, at the first candidate of a layer marked `init: true`. -/
theorem together_writes (h : Together b fm prog defaults w s c writes) (hn : ("default" :: prog.layers.map LayerSpec.name).Nodup) (i : ι)
    (dv : Value) (hdv : valueMapMacro (defaults i) = some dv) (o : Wrote) (ho : o ∈ writes i) :
    ∃ l ∈ prog.layers, l.init = some true ∧ ∃ p cd, (layerCandidates b w prog.fileName l).head? = some p ∧ FormatOf b fm p cd ∧
      o.through = .file (textHandler cd) p ∧ o.value = dv ∧ w.pathExists p = false := by
  obtain ⟨ms, hl, hrun, hw⟩ := h.runs i
  obtain ⟨l, m, p, cd, g1, g2, g3, g4, g5, -, g6, -, g7, -⟩ :=
    (C80_writes b fm (programOf prog defaults i) ms hn (c i) (writes i) hrun dv hdv).2.1 o ho
  have hlm := List.of_mem_zip g1
  obtain ⟨td, tk, tc, e1, e2, e3, e4⟩ := hw m hlm.2
  have hcand : layerCandidates b m.dirs prog.fileName l = layerCandidates b w prog.fileName l := by
    rw [e1]; exact (together_same h td).candidates b _ _
  refine ⟨l, hlm.1, g3, p, cd, ?_, g5, g6, g7, ?_⟩
  rotate_left
  · by_contra hex
    have h0 : (s 0).2.pathExists p = true := by rw [h.start]; simpa using hex
    rw [e3, together_exists h (Nat.zero_le tc) h0] at g4
    cases g4
  rcases g2 with ⟨_, -, ⟨k, hk⟩, -⟩ | ⟨hh, -⟩
  · rw [e2] at hk
    rw [e3, together_exists h (e4 k).2 hk] at g4
    cases g4
  · exact hcand ▸ hh

/-- All writers at one place print the same text. -/
theorem together_sameText (h : Together b fm prog defaults w s c writes) (hn : ("default" :: prog.layers.map LayerSpec.name).Nodup)
    (hc : ∀ i, CleanStart b w (programOf prog defaults i)) (ht : SameTexts b fm defaults) {i : ι} {k : Nat} {o : Wrote} {cd : Codec} {q : OsStr}
    {text : String} (g1 : (writes i)[k]? = some o) (g2 : o.through = .file (textHandler cd) q) (hp : cd.print o.value.toData = .ok text) :
    ∀ (x : ι × Nat) (o' : Wrote) (cd'' : Codec) (p' : OsStr), (writes x.1)[x.2]? = some o' →
        o'.through = .file (textHandler cd'') p' → w.locate p' = w.locate q → cd''.print o'.value.toData = .ok text := by
  obtain ⟨dv, hdv, -⟩ := C19_value_map (defaults i)
  obtain ⟨l, hl, hi, p, cd', e1, e2, e3, rfl, -⟩ := together_writes h hn i dv hdv o (List.mem_of_getElem? g1)
  rw [g2] at e3
  have e3' := (Layer.file.inj e3).1
  obtain rfl := (Layer.file.inj e3).2
  replace hp := textHandler_print e3' hp
  intro x o' cd'' p' k1 k2 k3
  obtain ⟨dv', hdv', -⟩ := C19_value_map (defaults x.1)
  obtain ⟨l', hl', -, p'', cd3, f1, f2, f3, rfl, -⟩ := together_writes h hn x.1 dv' hdv' o' (List.mem_of_getElem? k1)
  rw [k2] at f3
  have f3' := (Layer.file.inj f3).1
  obtain rfl := (Layer.file.inj f3).2
  have hext := (hc i).places l' hl' l hl p' (List.mem_of_mem_head? f1) q (List.mem_of_mem_head? e1) k3
  have hcd : cd3 = cd' := TextFmt.unique f2 e2 hext
  subst hcd
  exact textHandler_print f3'.symm (by rw [← ht i x.1 _ _ hdv hdv' q cd3 e2]; exact hp)

/-- **C101.** At every moment, whoever has died or is still writing, in whatever world they started and whatever they print: files have only
appeared where there was nothing, at the first candidate of a layer marked `init: true`, and every byte in them is zero or what one of the
processes would write at its position. Nothing else has changed. -/
theorem C101_any_moment (h : Together b fm prog defaults w s c writes) (hn : ("default" :: prog.layers.map LayerSpec.name).Nodup) (T : Nat) :
    (s T).2 = { w with disk := (s T).2.disk } ∧
    ∀ slot, (s T).2.disk slot = w.disk slot ∨
      (w.disk slot = .absent none ∧ ∃ bs, (s T).2.disk slot = .file bs none none ∧ (∃ text, WouldWrite b fm prog defaults w slot text) ∧
        ∀ (k : Nat) (x : UInt8), bs[k]? = some x → x = 0 ∨ ∃ text, WouldWrite b fm prog defaults w slot text ∧ (utf8 text)[k]? = some x) := by
  refine ⟨together_same h T, fun slot => ?_⟩
  -- what a writer prints
  have hwould : ∀ (x : ι × Nat) (o : Wrote) (cd : Codec) (p : OsStr) (text : String), (writes x.1)[x.2]? = some o →
      o.through = .file (textHandler cd) p → cd.print o.value.toData = .ok text →
      WouldWrite b fm prog defaults w (w.locate p) text ∧ w.pathExists p = false := by
    intro x o cd p text g1 g2 hp
    obtain ⟨dv, hdv, -⟩ := C19_value_map (defaults x.1)
    obtain ⟨l, hl, hi, p', cd', e1, e2, e3, rfl, e4⟩ := together_writes h hn x.1 dv hdv o (List.mem_of_getElem? g1)
    rw [g2] at e3
    have e3' := (Layer.file.inj e3).1
    obtain rfl := (Layer.file.inj e3).2
    exact ⟨⟨x.1, _, hdv, l, hl, hi, p, e1, rfl, cd', e2, textHandler_print e3' hp⟩, e4⟩
  have htexts : ∀ x : ι × Nat, ∃ tx : String, ∀ (o : Wrote) (cd : Codec) (p : OsStr) (text : String), (writes x.1)[x.2]? = some o →
      o.through = .file (textHandler cd) p → cd.print o.value.toData = .ok text → text = tx := by
    intro x
    by_cases hex : ∃ (o : Wrote) (cd : Codec) (p : OsStr) (text : String), (writes x.1)[x.2]? = some o ∧
      o.through = .file (textHandler cd) p ∧ cd.print o.value.toData = .ok text
    · obtain ⟨o, cd, p, text, g1, g2, g3⟩ := hex
      refine ⟨text, fun o' cd' p' text' k1 k2 k3 => ?_⟩
      rw [g1] at k1; cases k1
      rw [g2] at k2
      have := textHandler_print (Layer.file.inj k2).1.symm k3
      rw [g3] at this; cases this; rfl
    · exact ⟨"", fun o cd p text k1 k2 k3 => absurd ⟨o, cd, p, text, k1, k2, k3⟩ hex⟩
  choose texts htexts using htexts
  rcases together_touched h slot T with ⟨hu, -⟩ | ⟨⟨i, k⟩, o, cd, q, text, g1, g2, rfl, hp, hstarted, -⟩
  · exact Or.inl hu
  · obtain ⟨hw1, habs⟩ := hwould (i, k) o cd q text g1 g2 hp
    have habs' : ∃ r, w.disk (w.locate q) = .absent r := by
      unfold World.pathExists at habs
      revert habs
      cases w.disk (w.locate q) <;> simp
    obtain ⟨acts, ph', w', r1, r2, r3, r4, r5⟩ := project h q (texts := texts)
      (fun x o' cd'' p' t k1 k2 k3 k4 => htexts x o' cd'' p' t k1 k2 k4) T
    have hx0 : WriterAt w writes (w.locate q) (i, k) := ⟨o, cd, q, g1, g2, rfl⟩
    rcases C73_bytes q texts ph' w w' acts r1 with ⟨-, hall⟩ | ⟨bs, r, k1, k2⟩
    · have := r2 _ hx0
      rw [hall] at this
      exact absurd this.symm hstarted
    · rw [r4] at k1
      rcases together_fresh h (w.locate q) habs' T with hf | ⟨hf, bs', hf'⟩
      · obtain ⟨r', hr'⟩ := habs'
        rw [hf, hr'] at k1; cases k1
      · rw [hf'] at k1
        cases k1
        refine Or.inr ⟨hf, _, hf', ⟨text, hw1⟩, fun n x hx => ?_⟩
        rcases k2 n x hx with h0 | ⟨y, hy1, hy2⟩
        · exact Or.inl h0
        · by_cases hya : WriterAt w writes (w.locate q) y
          · right
            rw [r2 y hya] at hy1
            obtain ⟨o', cd', p', f1, f2, f3⟩ := hya
            obtain ⟨ty, hty⟩ := together_printed h T y.1 y.2 o' cd' p' f1 f2 hy1
            refine ⟨ty, ?_, ?_⟩
            · rw [← f3]; exact (hwould y o' cd' p' ty f1 f2 hty).1
            · rw [htexts y o' cd' p' ty f1 f2 hty]; exact hy2
          · exact absurd (r3 y hya) hy1

/-- **C101.** Processes may be killed while writing: if the one that opened a file last finished its write there, the file holds exactly the text of
the defaults, whatever became of the others. -/
theorem C101_killed (h : Together b fm prog defaults w s c writes) (hn : ("default" :: prog.layers.map LayerSpec.name).Nodup)
    (hc : ∀ i, CleanStart b w (programOf prog defaults i)) (ht : SameTexts b fm defaults) (i : ι) (k : Nat) (o : Wrote) (cd : Codec) (p : OsStr)
    (text : String) (ho : (writes i)[k]? = some o) (hth : o.through = .file (textHandler cd) p) (hp : cd.print o.value.toData = .ok text)
    (t T : Nat) (htT : t < T) (hbefore : (s t).1 (i, k) = .start) (hopened : (s (t + 1)).1 (i, k) ≠ .start)
    (hlast : ∀ j m o' cd' p', (writes j)[m]? = some o' → o'.through = .file (textHandler cd') p' → w.locate p' = w.locate p →
      (s (t + 1)).1 (j, m) = .start → (s T).1 (j, m) = .start)
    (off : Nat) (hdone : (s T).1 (i, k) = .writing off []) :
    (s T).2.disk (w.locate p) = .file (utf8 text) none none := by
  have hsame := together_sameText h hn hc ht ho hth hp
  have hT : TextsAt w writes p (fun _ => text) := by
    intro x o' cd' p' t' k1 k2 k3 k4
    rw [hsame x o' cd' p' k1 k2 k3] at k4; cases k4; rfl
  have hat : WriterAt w writes (w.locate p) (i, k) := ⟨o, cd, p, ho, hth, rfl⟩
  obtain ⟨acts, hs1⟩ := project h p hT t
  obtain ⟨more, hs2, -, honly⟩ := seenAt_step h p hT t hs1
  have := honly (i, k) hat hbefore hopened
  subst this
  obtain ⟨after, hs3, hopens⟩ := seenAt_more h p hT (Nat.succ_le_of_lt htT) hs2
  obtain ⟨ph', w', r1, r2, r3, r4, r5⟩ := hs3
  rw [List.append_assoc] at r1
  obtain ⟨r, k1, -⟩ := C73_last_opener p (fun _ => text) ph' w w' acts after (i, k) off r1 (by
    rintro ⟨j, m⟩ hj
    obtain ⟨⟨o', cd', p', f1, f2, f3⟩, f4, f5⟩ := hopens _ hj
    exact f5 (hlast j m o' cd' p' f1 f2 f3 f4)) (fun _ _ => rfl) (by rw [r2 _ hat]; exact hdone)
  rw [r4] at k1
  obtain ⟨dv, hdv, -⟩ := C19_value_map (defaults i)
  obtain ⟨l, hl, hi, p', cd', e1, e2, e3, rfl, habs⟩ := together_writes h hn i dv hdv o (List.mem_of_getElem? ho)
  rw [hth] at e3
  obtain rfl := (Layer.file.inj e3).2
  have habs' : ∃ r, w.disk (w.locate p) = .absent r := by
    unfold World.pathExists at habs
    revert habs
    cases w.disk (w.locate p) <;> simp
  rcases together_fresh h (w.locate p) habs' T with hf | ⟨hf, bs', hf'⟩
  · obtain ⟨r', hr'⟩ := habs'
    rw [hf, hr'] at k1; cases k1
  · rw [hf'] at k1 ⊢
    cases k1; rfl

/-- **C101.** Any number of processes run the program for the first time at once, interleaved in any way, and print the same text. Once
all are done, files have only been created where there was nothing: first candidates of layers marked `init: true`, each holding exactly
the text of the defaults. -/
theorem C101_files (h : Together b fm prog defaults w s c writes) (hn : ("default" :: prog.layers.map LayerSpec.name).Nodup)
    (hc : ∀ i, CleanStart b w (programOf prog defaults i)) (ht : SameTexts b fm defaults) (T : Nat) (hd : AllDone writes (s T)) :
    Created (fun slot bytes => ∃ i dv, valueMapMacro (defaults i) = some dv ∧ Initialises b fm w (programOf prog defaults i) dv slot bytes)
      w (s T).2 := by
  refine ⟨together_same h T, fun slot => ?_⟩
  rcases together_touched h slot T with ⟨hu, -⟩ | ⟨⟨i, k⟩, o, cd, q, text, g1, g2, rfl, hp, hstarted, -⟩
  · exact Or.inl hu
  · obtain ⟨dv, hdv, -⟩ := C19_value_map (defaults i)
    obtain ⟨l, hl, hi, p, cd', e1, e2, e3, rfl, -⟩ := together_writes h hn i dv hdv o (List.mem_of_getElem? g1)
    rw [g2] at e3
    have e3' := (Layer.file.inj e3).1
    obtain rfl := (Layer.file.inj e3).2
    replace hp := textHandler_print e3' hp
    have habs := (hc i).absent l hl q (List.mem_of_mem_head? e1)
    have habs' : ∃ r, w.disk (w.locate q) = .absent r := by
      unfold World.pathExists at habs
      revert habs
      cases w.disk (w.locate q) <;> simp
    have hsame := together_sameText h hn hc ht g1 g2 (textHandler_print e3'.symm hp)
    obtain ⟨acts, ph', w', r1, r2, r3, r4, r5⟩ := project h q (texts := fun _ => text) (by
      intro x o' cd'' p' t k1 k2 k3 k4
      rw [hsame x o' cd'' p' k1 k2 k3] at k4; cases k4; rfl) T
    have hdone : ∀ x, ph' x = .start ∨ ∃ off, ph' x = .writing off [] := by
      intro x
      by_cases hx : WriterAt w writes (w.locate q) x
      · rw [r2 x hx]
        obtain ⟨o', cd'', p', k1, k2, k3⟩ := hx
        rcases hd x.1 x.2 o' cd'' p' text k1 k2 (hsame x o' cd'' p' k1 k2 k3) with hoff | ⟨hst, -⟩
        · exact Or.inr hoff
        · exact Or.inl hst
      · exact Or.inl (r3 x hx)
    have hx0 : WriterAt w writes (w.locate q) (i, k) := ⟨o, cd, q, g1, g2, rfl⟩
    obtain ⟨r, k1, -⟩ := C73_same_text q text ph' w w' acts r1 hdone ⟨(i, k), by rw [r2 _ hx0]; exact hstarted⟩
    rw [r4] at k1
    rcases together_fresh h (w.locate q) habs' T with hf | ⟨hf, bs, hf'⟩
    · obtain ⟨r', hr'⟩ := habs'
      rw [hf, hr'] at k1; cases k1
    · right
      rw [hf'] at k1
      cases k1
      exact ⟨hf, _, ⟨i, o.value, hdv, l, hl, hi, q, e1, rfl, cd', text, e2, hp, List.prefix_refl _, fun _ => rfl⟩, hf'⟩

/-- What processes printing the same text may create. -/
def Theirs (b : Build) (fm : Formats) (prog : MacroArgs) (defaults : ι → List (String × Value)) (w : World) (slot : Nat) (bytes : List UInt8) : Prop :=
  ∃ i dv, valueMapMacro (defaults i) = some dv ∧ Initialises b fm w (programOf prog defaults i) dv slot bytes

theorem holdsDefaults_theirs {b : Build} {fm : Formats} {prog : MacroArgs} {defaults : ι → List (String × Value)} {w u : World}
    (hc : ∀ i, CleanStart b w (programOf prog defaults i)) (ht : SameTexts b fm defaults) (h : Created (Theirs b fm prog defaults w) w u)
    {i : ι} {dv : Value} (hdv : valueMapMacro (defaults i) = some dv) {P : Value → Prop} (hf : ReadsAs b fm dv P) :
    HoldsDefaults b fm u (programOf prog defaults i) P := by
  intro l hl p hp name e ho
  rw [h.same.candidates] at hp
  obtain ⟨cd, rfl, hcd⟩ := offer_file ho
  have habs := (hc i).absent _ hl _ hp
  rcases h.2 (w.locate p) with hsame | ⟨-, bytes, ⟨j, dv', hdv', l', hl', hi, q, hq, hs, fmt, text, hfm, hprint, -, hall⟩, hfile⟩
  · refine ⟨.map [], C56_missing _ u p ?_, Or.inl rfl⟩
    have : u.disk (u.locate p) = w.disk (w.locate p) := by rw [h.same.locate]; exact hsame
    rw [pathExists_congr this]; exact habs
  · have hext := (hc i).places _ hl _ hl' _ hp _ (List.mem_of_mem_head? hq) hs
    have hcd' : cd = fmt := TextFmt.unique (p := p) (q := q) hcd hfm hext
    subst hcd'
    have hb : bytes = utf8 text := hall ((hc i).room _)
    subst hb
    rw [← ht i j dv dv' hdv hdv' p cd hcd] at hprint
    obtain ⟨doc, v, hparse, hvisit, hP⟩ := hf cd (hfm.elim (fun h => Or.inl h.2) (fun h => Or.inr h.2)) text hprint
    have hd' : u.disk (u.locate p) = .file (utf8 text) none none := by rw [h.same.locate]; exact hfile
    exact ⟨v, (C56_content cd u p (read_text hd').2 v).2 ⟨text, doc, none, hd', hparse, hvisit⟩, Or.inr hP⟩

/-- A configuration of the defaults, some files and the environment, all of which say nothing or what the defaults say. -/
theorem builds_of_calls {b : Build} {fm : Formats} {u : World} {dv : Value} {files : List (String × OsStr)} {env : Option String} {P : Value → Prop}
    (hold : ∀ x ∈ files, ∀ e, (RegCall.file x.1 x.2).offer b fm = some e → ∃ y, e.2.readValue u = .ok y ∧ (y = .map [] ∨ P y))
    (henv : ∀ pre, env = some pre → ∃ P, Trimmed pre P ∧ P ≠ "" ∧ ∀ a ∈ u.env, ¬ ∃ k s, Lands P a k ∧ HasText a s) (skip : Bool) :
    ∃ more : List Value, (register b fm ([.memory "default" dv] ++ files.map (fun x => .file x.1 x.2) ++
        (env.map fun pre => RegCall.environment "environment" pre).toList)).buildValue u skip =
          .ok (more.foldl Value.merge (Value.newMap.merge dv)) ∧ ∀ x ∈ more, x = .map [] ∨ P x := by
  have hrest : ∀ e ∈ offers b fm (files.map (fun x => RegCall.file x.1 x.2) ++ (env.map fun pre => RegCall.environment "environment" pre).toList),
      ∃ y, e.2.readValue u = .ok y ∧ (y = .map [] ∨ P y) := by
    intro e he
    obtain ⟨call, hcall, ho⟩ := List.mem_filterMap.1 he
    rcases List.mem_append.1 hcall with hcall | hcall
    · obtain ⟨x, hx, rfl⟩ := List.mem_map.1 hcall
      exact hold x hx e ho
    · cases hpre : env with
      | none => rw [hpre] at hcall; cases hcall
      | some pre =>
        rw [hpre] at hcall
        simp at hcall; subst hcall; cases ho
        obtain ⟨P, hP, hne, hno⟩ := henv pre hpre
        exact ⟨.map [], readEnv_nothing hP hne hno, Or.inl rfl⟩
  obtain ⟨more, hm1, hm2⟩ := C60_default_first b fm dv (files.map (fun x => .file x.1 x.2) ++
      (env.map fun pre => RegCall.environment "environment" pre).toList)
  have hmore : ∀ e ∈ more, ∃ y, e.2.readValue u = .ok y ∧ (y = .map [] ∨ P y) := by
    intro e he
    rw [hm2] at he
    exact hrest e (mem_firsts (List.mem_filter.1 he).1)
  rw [List.append_assoc]
  refine ⟨readables u more, ?_, ?_⟩
  · have hfold : (readables u (firsts (offers b fm ([.memory "default" dv] ++ (files.map (fun x => .file x.1 x.2) ++
        (env.map fun pre => RegCall.environment "environment" pre).toList))))).foldl Value.merge Value.newMap =
        (readables u more).foldl Value.merge (Value.newMap.merge dv) := by rw [hm1]; rfl
    rw [buildValue_is (is_register b fm _), ← hfold]
    cases skip with
    | true => rw [buildList_true]
    | false =>
      rw [((buildList_false u _ _).1 _).2]
      refine ⟨fun e he => ?_, rfl⟩
      rw [hm1] at he
      rcases List.mem_cons.1 he with rfl | he
      · exact ⟨dv, rfl⟩
      · obtain ⟨y, hy, -⟩ := hmore e he; exact ⟨y, hy⟩
  · intro x hx
    obtain ⟨e, he, hr⟩ := List.mem_filterMap.1 hx
    obtain ⟨y, hy, hyy⟩ := hmore e he
    rw [hy] at hr; cases hr; exact hyy

theorem readsAs_faithful {b : Build} {fm : Formats} {dv : Value} (hdu : UniqueKeys dv) (hf : FaithfulOn fm dv) :
    ReadsAs b fm dv (fun y => Alike y dv ∧ UniqueKeys y) := by
  intro fmt hfmt text hp
  obtain ⟨doc, hparse, hpres⟩ := hf fmt (hfmt.elim (fun h => Or.inl h.2) (fun h => Or.inr h.2)) text hp
  obtain ⟨v, hvisit, halike, hvu⟩ := C66_reads dv hdu doc hpres
  exact ⟨doc, v, hparse, hvisit, Alike.symm halike, hvu⟩

theorem fold_shows {dv : Value} (hdm : dv.isMap = true) (hdu : UniqueKeys dv) {more : List Value}
    (h : ∀ x ∈ more, x = .map [] ∨ (Alike x dv ∧ UniqueKeys x)) :
    Alike (more.foldl Value.merge (Value.newMap.merge dv)) dv ∧ UniqueKeys (more.foldl Value.merge (Value.newMap.merge dv)) :=
  fold_alike_defaults hdu more _ (alike_of_same (C02_empty_merge dv hdm hdu)) (uniqueKeys_merge (uniqueKeys_map.2 ⟨List.nodup_nil, by simp⟩) hdu) h

theorem valueMapMacro_isMap {args : List (String × Value)} {dv : Value} (hdv : valueMapMacro args = some dv) : dv.isMap = true := by
  obtain ⟨x, hx, hxm, -⟩ := C19_value_map args
  rw [hdv] at hx; cases hx; exact hxm

/-- What each of these processes builds: its defaults, and over them values that say nothing or what the files say. -/
theorem together_builds (h : Together b fm prog defaults w s c writes) (hn : ("default" :: prog.layers.map LayerSpec.name).Nodup)
    (hc : ∀ i, CleanStart b w (programOf prog defaults i)) (ht : SameTexts b fm defaults) (T : Nat) (hd : AllDone writes (s T))
    (i : ι) (dv : Value) (hdv : valueMapMacro (defaults i) = some dv) {P : Value → Prop} (hf : ReadsAs b fm dv P) (skip : Bool) :
    ∃ more : List Value, (c i).buildValue (s T).2 skip = .ok (more.foldl Value.merge (Value.newMap.merge dv)) ∧ (∀ x ∈ more, x = .map [] ∨ P x) := by
  have hcr : Created (Theirs b fm prog defaults w) w (s T).2 := C101_files h hn hc ht T hd
  have hold := holdsDefaults_theirs hc ht hcr hdv hf
  obtain ⟨ms, hl, hrun, hw⟩ := h.runs i
  obtain ⟨dv', files, writes', k1, k2, k3, k4⟩ := C80_config b fm (programOf prog defaults i) ms
  have : dv' = dv := by
    have k1' : valueMapMacro (defaults i) = some dv' := k1
    rw [hdv] at k1'; exact (Option.some.inj k1').symm
  subst this
  rw [hrun] at k2
  have hci := (Prod.mk.inj (Outcome.ok.inj k2)).1
  have hfiles : files.map (fun x => RegCall.file x.1.1.name x.2) = (files.map fun x => (x.1.1.name, x.2)).map fun y => RegCall.file y.1 y.2 := by
    rw [List.map_map]; rfl
  rw [hfiles] at hci
  obtain ⟨more, m1, m2⟩ := builds_of_calls (b := b) (fm := fm) (u := (s T).2) (dv := dv') (files := files.map fun x => (x.1.1.name, x.2))
    (env := prog.env) (P := P) (by
      intro y hy e ho
      obtain ⟨x, hx, rfl⟩ := List.mem_map.1 hy
      have hz : x.1 ∈ prog.layers.zip ms := by
        have : x.1 ∈ files.map Prod.fst := List.mem_map_of_mem hx
        rw [k3] at this; exact (List.mem_filter.1 this).1
      obtain ⟨td, tk, tc, e1, -⟩ := hw x.1.2 (List.of_mem_zip hz).2
      have hcand : layerCandidates b x.1.2.dirs prog.fileName x.1.1 = layerCandidates b (s T).2 prog.fileName x.1.1 := by
        rw [e1, (together_same h td).candidates, (together_same h T).candidates]
      have hp : x.2 ∈ layerCandidates b (s T).2 prog.fileName x.1.1 := by
        rw [← hcand]
        rcases k4 x hx with ⟨_, hi', -⟩ | ⟨hh, -⟩
        · exact List.mem_of_getElem? hi'
        · exact List.mem_of_mem_head? hh
      exact hold x.1.1 (List.of_mem_zip hz).1 x.2 hp _ e ho)
    (by intro pre hpre; rw [(together_same h T).env]; exact (hc i).env pre hpre) skip
  exact ⟨more, by rw [hci]; exact m1, m2⟩

/-- What later runs build. -/
theorem together_later (h : Together b fm prog defaults w s c writes) (hn : ("default" :: prog.layers.map LayerSpec.name).Nodup)
    (hc : ∀ i, CleanStart b w (programOf prog defaults i)) (ht : SameTexts b fm defaults) (T : Nat) (hd : AllDone writes (s T))
    (i : ι) (dv : Value) (hdv : valueMapMacro (defaults i) = some dv) {P : Value → Prop} (hf : ReadsAs b fm dv P) (n : Nat) (skip : Bool) :
    ∃ c' w', nthRun b fm (s T).2 (programOf prog defaults i) n = .ok (c', w') ∧
      (∀ slot, w.disk slot ≠ (s T).2.disk slot → w'.disk slot = (s T).2.disk slot) ∧
      ∃ more : List Value, c'.buildValue w' skip = .ok (more.foldl Value.merge (Value.newMap.merge dv)) ∧ (∀ x ∈ more, x = .map [] ∨ P x) := by
  have hcr : Created (Theirs b fm prog defaults w) w (s T).2 := C101_files h hn hc ht T hd
  have hone : ∀ u, Created (Theirs b fm prog defaults w) w u → ∀ c' u', createConfig b fm u (programOf prog defaults i) = .ok (c', u') →
      Created (Theirs b fm prog defaults w) u u' ∧ Created (Theirs b fm prog defaults w) w u' ∧
        ∃ more : List Value, c'.buildValue u' skip = .ok (more.foldl Value.merge (Value.newMap.merge dv)) ∧ (∀ x ∈ more, x = .map [] ∨ P x) := by
    intro u hu c' u' hcc
    obtain ⟨dv', hdv', hcreated⟩ := C61_init_safe b fm u (programOf prog defaults i) (hc i).names c' u' hcc
    have hdv'' : valueMapMacro (defaults i) = some dv' := hdv'
    rw [hdv] at hdv''; cases hdv''
    have h1 : Created (Theirs b fm prog defaults w) u u' := hcreated.mono (by
      rintro slot bytes ⟨l, hl, hi, p, hp, hs, fmt, text, g1, g2, g3, g4⟩
      refine ⟨i, dv, hdv, l, hl, hi, p, ?_, ?_, fmt, text, g1, g2, g3, ?_⟩
      · rw [← hu.same.candidates]; exact hp
      · rw [hs, hu.same.locate]
      · rw [← hu.same.room]; exact g4)
    have h2 := hu.trans h1
    have hold := holdsDefaults_theirs hc ht h2 hdv hf
    obtain ⟨more, m1, m2, m3, m4⟩ := builds_defaults hcc h1.same hdv (hc i).uniqueKeys hold (by
      rw [hu.same.env]; exact (hc i).env) skip
    exact ⟨h1, h2, more, m1, m2⟩
  have hind : ∀ n, ∃ c' w', nthRun b fm (s T).2 (programOf prog defaults i) n = .ok (c', w') ∧
      Created (Theirs b fm prog defaults w) (s T).2 w' ∧ Created (Theirs b fm prog defaults w) w w' ∧
        ∃ more : List Value, c'.buildValue w' skip = .ok (more.foldl Value.merge (Value.newMap.merge dv)) ∧ (∀ x ∈ more, x = .map [] ∨ P x) := by
    intro n
    induction n with
    | zero =>
      obtain ⟨c', w', _, h0, -⟩ := C60_order b fm (s T).2 (programOf prog defaults i)
      exact ⟨c', w', h0, hone _ hcr c' w' h0⟩
    | succ n ih =>
      obtain ⟨c', w', h1, h2, h3, -⟩ := ih
      obtain ⟨c'', w'', _, h0, -⟩ := C60_order b fm w' (programOf prog defaults i)
      obtain ⟨k1, k2, k3⟩ := hone _ h3 c'' w'' h0
      exact ⟨c'', w'', by rw [nthRun, bind_eq_ok]; exact ⟨_, h1, h0⟩, h2.trans k1, k2, k3⟩
  obtain ⟨c', w', h1, h2, -, h3⟩ := hind n
  refine ⟨c', w', h1, ?_, h3⟩
  intro slot hne
  rcases hcr.2 slot with hsame | ⟨-, bytes, -, hfile⟩
  · exact absurd hsame.symm hne
  · rcases h2.2 slot with hsame | ⟨habs, -⟩
    · exact hsame
    · rw [hfile] at habs; cases habs

/-- **C101.** Then each of these processes builds a value that shows its defaults, at every path (up to the kind of integers), whether errors
are skipped or not. -/
theorem C101_builds (h : Together b fm prog defaults w s c writes) (hn : ("default" :: prog.layers.map LayerSpec.name).Nodup)
    (hc : ∀ i, CleanStart b w (programOf prog defaults i)) (ht : SameTexts b fm defaults) (T : Nat) (hd : AllDone writes (s T))
    (i : ι) (dv : Value) (hdv : valueMapMacro (defaults i) = some dv) (hf : FaithfulOn fm dv) (skip : Bool) :
    ∃ v, (c i).buildValue (s T).2 skip = .ok v ∧ Alike v dv ∧ UniqueKeys v := by
  have hdu : UniqueKeys dv := (C22_macros (defaults i) (hc i).uniqueKeys [] (by simp)).1 dv hdv
  obtain ⟨more, h1, h2⟩ := together_builds h hn hc ht T hd i dv hdv (readsAs_faithful (b := b) hdu hf) skip
  exact ⟨_, h1, fold_shows (valueMapMacro_isMap hdv) hdu h2⟩

/-- **C101.** And so does every later run of the program, the first, the second, … -/
theorem C101_later (h : Together b fm prog defaults w s c writes) (hn : ("default" :: prog.layers.map LayerSpec.name).Nodup)
    (hc : ∀ i, CleanStart b w (programOf prog defaults i)) (ht : SameTexts b fm defaults) (T : Nat) (hd : AllDone writes (s T))
    (i : ι) (dv : Value) (hdv : valueMapMacro (defaults i) = some dv) (hf : FaithfulOn fm dv) (n : Nat) (skip : Bool) :
    ∃ c' w', nthRun b fm (s T).2 (programOf prog defaults i) n = .ok (c', w') ∧
      (∀ slot, w.disk slot ≠ (s T).2.disk slot → w'.disk slot = (s T).2.disk slot) ∧
      ∃ v, c'.buildValue w' skip = .ok v ∧ Alike v dv ∧ UniqueKeys v := by
  have hdu : UniqueKeys dv := (C22_macros (defaults i) (hc i).uniqueKeys [] (by simp)).1 dv hdv
  obtain ⟨c', w', h0, hk, more, h1, h2⟩ := together_later h hn hc ht T hd i dv hdv (readsAs_faithful (b := b) hdu hf) n skip
  exact ⟨c', w', h0, hk, _, h1, fold_shows (valueMapMacro_isMap hdv) hdu h2⟩

/-- **C101.** The same in TOML, which has no null: each process, and every later run, builds its defaults; only a `None` inside a table of a list
may be missing. -/
theorem C101_toml {limit : Nat} (h : Together b fm prog defaults w s c writes) (hn : ("default" :: prog.layers.map LayerSpec.name).Nodup)
    (hc : ∀ i, CleanStart b w (programOf prog defaults i)) (ht : SameTexts b fm defaults) (T : Nat) (hd : AllDone writes (s T))
    (i : ι) (dv : Value) (hdv : valueMapMacro (defaults i) = some dv) (hf : FormatsFor limit b fm dv) (n : Nat) (skip : Bool) :
    (∃ v, (c i).buildValue (s T).2 skip = .ok v ∧ AlikeBelowLists dv v ∧ UniqueKeys v) ∧
    ∃ c' w', nthRun b fm (s T).2 (programOf prog defaults i) n = .ok (c', w') ∧
      (∀ slot, w.disk slot ≠ (s T).2.disk slot → w'.disk slot = (s T).2.disk slot) ∧
      ∃ v, c'.buildValue w' skip = .ok v ∧ AlikeBelowLists dv v ∧ UniqueKeys v := by
  have hdm := valueMapMacro_isMap hdv
  have hdu : UniqueKeys dv := (C22_macros (defaults i) (hc i).uniqueKeys [] (by simp)).1 dv hdv
  have hfold := fun more => fold_below hdm more _ (below_of_alike (Alike.symm (alike_of_same (C02_empty_merge dv hdm hdu))))
    (uniqueKeys_merge (uniqueKeys_map.2 ⟨List.nodup_nil, by simp⟩) hdu)
  obtain ⟨more, h1, h2⟩ := together_builds h hn hc ht T hd i dv hdv (readsAs_maybe hdu hf) skip
  obtain ⟨c', w', h0, hk, more', h1', h2'⟩ := together_later h hn hc ht T hd i dv hdv (readsAs_maybe hdu hf) n skip
  exact ⟨⟨_, h1, hfold more h2⟩, c', w', h0, hk, _, h1', hfold more' h2'⟩

theorem writeAt_nil (u : World) (slot off : Nat) : u.writeAt slot off [] = u := by
  unfold World.writeAt
  split
  · rename_i bs r wr hd
    have : overwrite bs off [] = bs := rfl
    rw [this]
    unfold World.put
    have : (fun s => if s = slot then Node.file bs r wr else u.disk s) = u.disk := by
      funext s
      by_cases e : s = slot
      · subst e; rw [if_pos rfl, hd]
      · rw [if_neg e]
    rw [this]
  · rfl

/-- When all are done, nothing changes any more. -/
theorem together_settled (h : Together b fm prog defaults w s c writes) (hn : ("default" :: prog.layers.map LayerSpec.name).Nodup) {T : Nat}
    (hd : AllDone writes (s T)) {t : Nat} (ht : T ≤ t) : (s t).2 = (s T).2 ∧ AllDone writes (s t) := by
  induction t, ht using Nat.le_induction with
  | base => exact ⟨rfl, hd⟩
  | succ n _ ih =>
    obtain ⟨ih1, ih2⟩ := ih
    rcases h.step n with e | st
    · rw [e]; exact ⟨ih1, ih2⟩
    · generalize hsn : s n = a at st ih1 ih2
      generalize s (n + 1) = a' at st
      cases st with
      | @opens ph u u1 i k o cd p text g1 g2 g3 g4 g5 =>
        rcases ih2 i k o cd p text g1 g2 g3 with ⟨off, hoff⟩ | ⟨-, e, he⟩
        · dsimp only at hoff; rw [g4] at hoff; cases hoff
        · dsimp only at he; rw [g5] at he; cases he
      | @writes ph u i k o cd p off piece rest g1 g2 g3 =>
        have hempty : piece ++ rest = [] := by
          -- the writer has been opened, so its text was printed
          obtain ⟨dv, hdv, -⟩ := C19_value_map (defaults i)
          obtain ⟨l, hl, hi, p', cd', e1, e2, e3, rfl, -⟩ := together_writes h hn i dv hdv o (List.mem_of_getElem? g1)
          have hpr : ∃ text, cd.print o.value.toData = .ok text := by
            have := together_printed h n i k o cd p g1 g2
            rw [hsn] at this
            exact this (by dsimp only; rw [g3]; simp)
          obtain ⟨text, hpr⟩ := hpr
          rcases ih2 i k o cd p text g1 g2 hpr with ⟨off', hoff⟩ | ⟨hst, -⟩
          · dsimp only at hoff; rw [g3] at hoff; exact (Writer.writing.inj hoff).2
          · dsimp only at hst; rw [g3] at hst; cases hst
        obtain ⟨rfl, rfl⟩ := List.append_eq_nil_iff.1 hempty
        dsimp only at *
        rw [writeAt_nil]
        refine ⟨ih1, ?_⟩
        intro i' k' o' cd' p' text' q1 q2 q3
        dsimp only
        by_cases ex : (i', k') = (i, k)
        · rw [ex]; left; exact ⟨_, by rw [Function.update_self]⟩
        · rw [Function.update_of_ne ex]; exact ih2 i' k' o' cd' p' text' q1 q2 q3

/-- **C101.** The file of every layer marked `init: true`, as each process found it, is then there, with exactly the text of its defaults
(if there is such a text and the OS lets the file be created). -/
theorem C101_created (h : Together b fm prog defaults w s c writes) (hn : ("default" :: prog.layers.map LayerSpec.name).Nodup)
    (hc : ∀ i, CleanStart b w (programOf prog defaults i)) (ht : SameTexts b fm defaults) (T : Nat) (hd : AllDone writes (s T)) (i : ι) (dv : Value)
    (hdv : valueMapMacro (defaults i) = some dv) (l : LayerSpec) (hl : l ∈ prog.layers) (hi : l.init = some true) (hand : FileHandler) (p : OsStr)
    (hg : (c i).getLayer l.name = some (.file hand p)) (hr : w.disk (w.locate p) = .absent none) :
    ∃ cd, FormatOf b fm p cd ∧ hand = textHandler cd ∧
      ∀ text, cd.print dv.toData = .ok text → (s T).2.disk (w.locate p) = .file (utf8 text) none none := by
  obtain ⟨ms, hlen, hrun, hw⟩ := h.runs i
  obtain ⟨dv', files, writes', k1, k2, k3, k4, k5⟩ := createConfigR_eq b fm (programOf prog defaults i) ms
  have : dv' = dv := by
    have k1' : valueMapMacro (defaults i) = some dv' := k1
    rw [hdv] at k1'; exact (Option.some.inj k1').symm
  subst this
  rw [hrun] at k2
  obtain ⟨hci, rfl⟩ := Prod.mk.inj (Outcome.ok.inj k2)
  replace k5 := k5 hn
  -- the layer of the configuration comes from the layer of the program
  rw [hci, (C11_first_wins b fm _ l.name).1] at hg
  obtain ⟨e, he, hel⟩ := Option.map_eq_some_iff.1 hg
  have hname : e.1 = l.name := by simpa using List.find?_some he
  obtain ⟨call, hcall, ho⟩ := List.mem_filterMap.1 (List.mem_of_find?_eq_some he)
  obtain ⟨x, hx, rfl⟩ : ∃ x ∈ files, call = .file x.1.1.name x.2 := by
    rcases List.mem_append.1 hcall with hcall | hcall
    · rcases List.mem_append.1 hcall with hcall | hcall
      · rw [List.mem_singleton.1 hcall] at ho
        cases ho; cases hel
      · obtain ⟨x, hx, rfl⟩ := List.mem_map.1 hcall
        exact ⟨x, hx, rfl⟩
    · exfalso
      revert hcall
      cases (programOf prog defaults i).env with
      | none => simp
      | some pre =>
        intro hcall
        simp at hcall; subst hcall
        cases ho; cases hel
  obtain ⟨cd, rfl, hcd⟩ := offer_file ho
  obtain ⟨rfl, rfl⟩ := Layer.file.inj hel
  refine ⟨cd, hcd, rfl, fun text hp => ?_⟩
  have hz : x.1 ∈ prog.layers.zip ms := by
    have : x.1 ∈ files.map Prod.fst := List.mem_map_of_mem hx
    rw [k3] at this; exact (List.mem_filter.1 this).1
  have hxl : x.1.1 = l := by
    have hnd := (List.nodup_cons.1 hn).2
    exact List.inj_on_of_nodup_map hnd (List.of_mem_zip hz).1 hl hname
  obtain ⟨td, tk, tc, e1, e2, e3, e4⟩ := hw x.1.2 (List.of_mem_zip hz).2
  have hcand : x.2 ∈ layerCandidates b w prog.fileName l := by
    rw [← (together_same h td).candidates, ← e1, ← hxl]
    rcases k4 x hx with ⟨_, hi', -⟩ | ⟨hh, -⟩
    · exact List.mem_of_getElem? hi'
    · exact List.mem_of_mem_head? hh
  -- it exists in the end
  have hex : (s T).2.pathExists x.2 = true := by
    cases hck : x.1.2.check.pathExists x.2 with
    | true =>
      rw [e3] at hck
      rcases Nat.le_total tc T with hle | hle
      · exact together_exists h hle hck
      · rw [← (together_settled h hn hd hle).1]; exact hck
    | false =>
      have hiss : ∃ o, issued b fm dv' x = some o ∧ o.through = .file (textHandler cd) x.2 ∧ o.value = dv' := by
        unfold issued
        rw [if_pos ⟨by rw [hxl]; exact hi, hck⟩, ho]
        exact ⟨_, rfl, rfl, rfl⟩
      obtain ⟨o, ho1, ho2, rfl⟩ := hiss
      have hmem : o ∈ writes i := by rw [k5]; exact List.mem_filterMap.2 ⟨x, hx, ho1⟩
      obtain ⟨k, hk⟩ := List.mem_iff_getElem?.1 hmem
      have hfr := together_fresh h (w.locate x.2) ⟨none, hr⟩ T
      have hlT : (s T).2.locate = w.locate := (together_same h T).locate
      rcases hd i k o cd x.2 text hk ho2 hp with ⟨off, hoff⟩ | ⟨-, er, her⟩
      · rcases together_touched h (w.locate x.2) T with ⟨-, hall⟩ | ⟨y, o', cd', p', text', -, -, q1, -, -, q2⟩
        · have := hall (i, k) ⟨o, cd, x.2, hk, ho2, rfl⟩
          rw [hoff] at this; cases this
        · unfold World.pathExists at q2 ⊢
          rw [hlT] at q2 ⊢
          rw [← q1]; exact q2
      · exfalso
        unfold World.openTrunc at her
        rw [hlT] at her
        rcases hfr with hfr | ⟨-, bs, hfr⟩
        · rw [hfr, hr] at her; cases her
        · rw [hfr] at her; cases her
  rcases (C101_files h hn hc ht T hd).2 (w.locate x.2) with hsame | ⟨-, bytes, ⟨j, dvj, hdvj, l', hl', -, q, hq, hs, fmt, text', hfm, hprint, -, hall⟩, hfile⟩
  · exfalso
    unfold World.pathExists at hex
    rw [(together_same h T).locate, hsame, hr] at hex
    cases hex
  · have hext := (hc i).places _ hl _ hl' _ hcand _ (List.mem_of_mem_head? hq) hs
    have hcd' : cd = fmt := TextFmt.unique (p := x.2) (q := q) hcd hfm hext
    subst hcd'
    rw [ht j i _ _ hdvj hdv x.2 cd hcd, hp] at hprint
    cases hprint
    rw [hfile, hall ((hc i).room _)]

/-! ### C101 at work -/

/-- Two processes, whose `HashMap`s of defaults have different orders. -/
def exTwo : Bool → List (String × Value)
  | false => [("port", .uInteger ⟨8080, by decide⟩), ("hosts", .array [.string "a", .string "b"])]
  | true => [("hosts", .array [.string "a", .string "b"]), ("port", .uInteger ⟨8080, by decide⟩)]

theorem exTwo_clean (i : Bool) : CleanStart exB1 exFresh (programOf exTypedArgs exTwo i) where
  names := by cases i <;> decide
  uniqueKeys := by
    intro e he
    cases i <;> simp [programOf, exTwo] at he <;> rcases he with rfl | rfl <;> simp [UniqueKeys, UniqueKeysList]
  absent := by cases i <;> decide
  room := fun _ => rfl
  places := by cases i <;> decide
  env := by
    intro pre hpre
    cases hpre
    exact ⟨"APP_", (trimStr_iff _ _).1 (by decide), by decide, exPath_not_app⟩

/-- The worlds that the layers of a process meet when nobody has written yet. -/
def exMoments : List LayerMoments := [⟨exFresh, fun _ => exFresh, exFresh, exFresh⟩, ⟨exFresh, fun _ => exFresh, exFresh, exFresh⟩]

/-- What both processes get. -/
def exConfig (cd : Codec) (i : Bool) : Config :=
  register exB1 ⟨cd, cd⟩ [.memory "default" (.map (exTwo i)), .file "one" (os "/a/f.toml"), .file "two" (os "/b/f.toml"),
    .environment "environment" "APP_"]

/-- What a later run gets: by then, the first layer finds the file too. -/
def exConfigLater (cd : Codec) (i : Bool) : Config :=
  register exB1 ⟨cd, cd⟩ [.memory "default" (.map (exTwo i)), .file "one" (os "/b/f.toml"), .file "two" (os "/b/f.toml"),
    .environment "environment" "APP_"]

/-- Both processes find nothing, so both write. -/
theorem exTwo_runs (cd : Codec) : ∃ o : Bool → Wrote,
    ∀ i, createConfigR exB1 ⟨cd, cd⟩ (programOf exTypedArgs exTwo i) exMoments = .ok (exConfig cd i, [o i]) ∧
      (o i).through = .file (textHandler cd) (os "/b/f.toml") ∧ (o i).value = .map (exTwo i) := by
  have h : ∀ i : Bool, ∃ o : Wrote, createConfigR exB1 ⟨cd, cd⟩ (programOf exTypedArgs exTwo i) exMoments = .ok (exConfig cd i, [o]) ∧
      o.through = .file (textHandler cd) (os "/b/f.toml") ∧ o.value = .map (exTwo i) := by
    intro i
    cases i
    · exact ⟨_, rfl, rfl, rfl⟩
    · exact ⟨_, rfl, rfl, rfl⟩
  choose o h using h
  exact ⟨o, h⟩

theorem put_put (w : World) (slot : Nat) (n n' : Node) : (w.put slot n).put slot n' = w.put slot n' := by
  unfold World.put
  congr 1
  funext s
  by_cases h : s = slot <;> simp [h]

theorem put_writeAt (w : World) (slot off : Nat) (bs piece : List UInt8) (r wr : Option Nat) :
    (w.put slot (.file bs r wr)).writeAt slot off piece = w.put slot (.file (overwrite bs off piece) r wr) := by
  have : (w.put slot (.file bs r wr)).disk slot = .file bs r wr := by simp [World.put]
  unfold World.writeAt
  rw [this]
  exact put_put _ _ _ _

/-- A history of two processes that find nothing and write at one place: one opens the file and writes a piece; the other one opens it and
writes all; the first one writes the rest. -/
theorem two_history (cd : Codec) (prog : MacroArgs) (defaults : Bool → List (String × Value)) (cfg : Bool → Config) (o : Bool → Wrote)
    (ms : List LayerMoments) (hms : ms.length = prog.layers.length) (hm : ∀ m ∈ ms, m = ⟨exFresh, fun _ => exFresh, exFresh, exFresh⟩)
    (ho : ∀ i, createConfigR exB1 ⟨cd, cd⟩ (programOf prog defaults i) ms = .ok (cfg i, [o i]) ∧
      (o i).through = .file (textHandler cd) (os "/b/f.toml"))
    (text : Bool → String) (hpr : ∀ i, cd.print (o i).value.toData = .ok (text i)) (piece rest : List UInt8) (hcut : utf8 (text true) = piece ++ rest) :
    ∃ s : Nat → (Bool × Nat → Writer) × World,
      Together exB1 ⟨cd, cd⟩ prog defaults exFresh s cfg (fun i => [o i]) ∧ AllDone (fun i => [o i]) (s 5) ∧
      (∀ i, (s 5).1 (i, 0) ≠ .start) ∧
      (s 5).2 = exFresh.put 2 (.file (overwrite (overwrite [] 0 (utf8 (text false))) piece.length rest) none none) ∧
      (s 2).1 (false, 0) = .start ∧ (s 3).1 (false, 0) ≠ .start ∧ (s 3).1 (true, 0) ≠ .start ∧ (∃ off, (s 4).1 (false, 0) = .writing off []) := by
  let writes : Bool → List Wrote := fun i => [o i]
  have hw : ∀ i, (writes i)[0]? = some (o i) := fun _ => rfl
  let ph0 : Bool × Nat → Writer := fun _ => .start
  let ph1 := Function.update ph0 (true, 0) (.writing 0 (utf8 (text true)))
  let ph2 := Function.update ph1 (true, 0) (.writing (0 + piece.length) rest)
  let ph3 := Function.update ph2 (false, 0) (.writing 0 (utf8 (text false)))
  let ph4 := Function.update ph3 (false, 0) (.writing (0 + (utf8 (text false)).length) [])
  let ph5 := Function.update ph4 (true, 0) (.writing (0 + piece.length + rest.length) [])
  let W : List UInt8 → World := fun bs => exFresh.put 2 (.file bs none none)
  have s1 : StartsStep writes (ph0, exFresh) (ph1, W []) := .opens true 0 (hw _) (ho _).2 (hpr _) rfl rfl
  have s2 : StartsStep writes (ph1, W []) (ph2, W (overwrite [] 0 piece)) := by
    have := StartsStep.writes (writes := writes) (ph := ph1) (w := W []) true 0 (off := 0) (piece := piece) (rest := rest) (hw _) (ho _).2
      (by show Function.update _ _ _ _ = _; rw [Function.update_self, hcut])
    have e : (W []).writeAt ((W []).locate (os "/b/f.toml")) 0 piece = W (overwrite [] 0 piece) := put_writeAt _ _ _ _ _ _ _
    rw [e] at this
    exact this
  have s3 : StartsStep writes (ph2, W (overwrite [] 0 piece)) (ph3, W []) := by
    refine .opens false 0 (hw _) (ho _).2 (hpr _) ?_ ?_
    · show Function.update _ _ _ _ = _
      rw [Function.update_of_ne (by simp)]
      show Function.update _ _ _ _ = _
      rw [Function.update_of_ne (by simp)]
    · show (Except.ok ((W (overwrite [] 0 piece)).put 2 (.file [] none none)) : Except IoError World) = _
      rw [show (W (overwrite [] 0 piece)).put 2 (.file [] none none) = W [] from put_put _ _ _ _]
  have s4 : StartsStep writes (ph3, W []) (ph4, W (overwrite [] 0 (utf8 (text false)))) := by
    have := StartsStep.writes (writes := writes) (ph := ph3) (w := W []) false 0 (off := 0) (piece := utf8 (text false)) (rest := [])
      (hw _) (ho _).2 (by show Function.update _ _ _ _ = _; rw [Function.update_self, List.append_nil])
    have e : (W []).writeAt ((W []).locate (os "/b/f.toml")) 0 (utf8 (text false)) = W (overwrite [] 0 (utf8 (text false))) :=
      put_writeAt _ _ _ _ _ _ _
    rw [e] at this
    exact this
  have s5 : StartsStep writes (ph4, W (overwrite [] 0 (utf8 (text false))))
      (ph5, W (overwrite (overwrite [] 0 (utf8 (text false))) piece.length rest)) := by
    have := StartsStep.writes (writes := writes) (ph := ph4) (w := W (overwrite [] 0 (utf8 (text false)))) true 0 (off := 0 + piece.length)
      (piece := rest) (rest := []) (hw _) (ho _).2 (by
        show Function.update _ _ _ _ = _
        rw [Function.update_of_ne (by simp)]
        show Function.update _ _ _ _ = _
        rw [Function.update_of_ne (by simp)]
        show Function.update _ _ _ _ = _
        rw [Function.update_self, List.append_nil])
    have e : (W (overwrite [] 0 (utf8 (text false)))).writeAt ((W (overwrite [] 0 (utf8 (text false)))).locate (os "/b/f.toml"))
        (0 + piece.length) rest = W (overwrite (overwrite [] 0 (utf8 (text false))) piece.length rest) := by
      rw [Nat.zero_add]; exact put_writeAt _ _ _ _ _ _ _
    rw [e] at this
    exact this
  have hall : ∀ i, ∃ off, ph5 (i, 0) = .writing off [] := by
    intro i
    cases i
    · refine ⟨0 + (utf8 (text false)).length, ?_⟩
      show Function.update _ _ _ _ = _
      rw [Function.update_of_ne (by simp)]
      show Function.update _ _ _ _ = _
      rw [Function.update_self]
    · exact ⟨0 + piece.length + rest.length, by show Function.update _ _ _ _ = _; rw [Function.update_self]⟩
  let s : Nat → (Bool × Nat → Writer) × World := fun t => match t with
    | 0 => (ph0, exFresh)
    | 1 => (ph1, W [])
    | 2 => (ph2, W (overwrite [] 0 piece))
    | 3 => (ph3, W [])
    | 4 => (ph4, W (overwrite [] 0 (utf8 (text false))))
    | _ => (ph5, W (overwrite (overwrite [] 0 (utf8 (text false))) piece.length rest))
  refine ⟨s, ⟨rfl, ?_, fun i => ⟨ms, hms, (ho i).1, ?_⟩⟩, ?_, ?_, rfl, ?_, ?_, ?_, ?_⟩
  · intro t
    match t with
    | 0 => exact Or.inr s1
    | 1 => exact Or.inr s2
    | 2 => exact Or.inr s3
    | 3 => exact Or.inr s4
    | 4 => exact Or.inr s5
    | n + 5 => exact Or.inl rfl
  · intro m hmm
    rw [hm m hmm]
    exact ⟨0, fun _ => 0, 0, rfl, fun _ => rfl, rfl, fun _ => ⟨le_refl _, le_refl _⟩⟩
  · intro i k o' cd' p' text' g1 g2 g3
    cases k with
    | zero => exact Or.inl (hall i)
    | succ k => simp at g1
  · intro i
    obtain ⟨off, hoff⟩ := hall i
    show ph5 (i, 0) ≠ .start
    rw [hoff]; simp
  · show ph2 (false, 0) = .start
    simp [ph2, ph1, ph0, Function.update_of_ne]
  · show ph3 (false, 0) ≠ .start
    simp [ph3]
  · show ph3 (true, 0) ≠ .start
    simp [ph3, ph2, Function.update_of_ne]
  · refine ⟨0 + (utf8 (text false)).length, ?_⟩
    show ph4 (false, 0) = _
    simp [ph4]

theorem exMoments_fresh : ∀ m ∈ exMoments, m = ⟨exFresh, fun _ => exFresh, exFresh, exFresh⟩ := by
  intro m hm
  simpa only [exMoments, List.mem_cons, List.not_mem_nil, or_false, or_self] using hm

theorem exSigned_same : SameTexts exB1 ⟨exSignedCodec, exSignedCodec⟩ exTwo := by
  intro i j dv dv' _ _ p cd hf
  rcases hf with ⟨-, -, rfl⟩ | ⟨-, -, rfl⟩ <;> rfl

/-- **C101** at work: both found nothing, both wrote at once; the file holds the text, both build their defaults, and so does every later
run. -/
example : ∃ (s : Nat → (Bool × Nat → Writer) × World) (writes : Bool → List Wrote) (T : Nat),
    Together exB1 ⟨exSignedCodec, exSignedCodec⟩ exTypedArgs exTwo exFresh s (exConfig exSignedCodec) writes ∧
    (∀ i, (s T).1 (i, 0) ≠ .start) ∧ (s T).2.disk 2 = .file (utf8 "P") none none ∧
    (∃ v, (exConfig exSignedCodec false).buildValue (s T).2 false = .ok v ∧ Alike v (.map (exTwo false))) ∧
    ∃ c' w', nthRun exB1 ⟨exSignedCodec, exSignedCodec⟩ (s T).2 (programOf exTypedArgs exTwo false) 7 = .ok (c', w') ∧
      ∃ v, c'.buildValue w' false = .ok v ∧ Alike v (.map (exTwo false)) := by
  obtain ⟨o, ho⟩ := exTwo_runs exSignedCodec
  obtain ⟨s, h, hd, hst, -⟩ := two_history exSignedCodec exTypedArgs exTwo (exConfig exSignedCodec) o exMoments rfl exMoments_fresh
    (fun i => ⟨(ho i).1, (ho i).2.1⟩) (fun _ => "P") (fun _ => rfl) (utf8 "P") [] rfl
  have hn : ("default" :: exTypedArgs.layers.map LayerSpec.name).Nodup := by decide
  have hf : FaithfulOn ⟨exSignedCodec, exSignedCodec⟩ (.map (exTwo false)) := exFaithful _ rfl
  refine ⟨s, _, 5, h, hst, ?_, ?_, ?_⟩
  · obtain ⟨cd, hcd, -, ht⟩ := C101_created h hn exTwo_clean exSigned_same 5 hd false (.map (exTwo false)) rfl
      ⟨"two", [.path "/b"], some true⟩ (by simp [exTypedArgs]) rfl (textHandler exSignedCodec) (os "/b/f.toml") rfl rfl
    refine ht "P" ?_
    rcases hcd with ⟨-, -, rfl⟩ | ⟨-, -, rfl⟩ <;> rfl
  · obtain ⟨v, hv, ha, -⟩ := C101_builds h hn exTwo_clean exSigned_same 5 hd false _ rfl hf false
    exact ⟨v, hv, ha⟩
  · obtain ⟨c', w', hrun, -, v, hv, ha, -⟩ := C101_later h hn exTwo_clean exSigned_same 5 hd false _ rfl hf 7 false
    exact ⟨c', w', hrun, v, hv, ha⟩

/-- **C101** at work: the first process is killed after a piece (moment 4 of this history); the other one opened the file last and finished. -/
example : ∃ (s : Nat → (Bool × Nat → Writer) × World) (writes : Bool → List Wrote),
    Together exB1 ⟨exSignedCodec, exSignedCodec⟩ exTypedArgs exTwo exFresh s (exConfig exSignedCodec) writes ∧
    (s 4).2.disk 2 = .file (utf8 "P") none none := by
  obtain ⟨o, ho⟩ := exTwo_runs exSignedCodec
  obtain ⟨s, h, -, -, -, h1, h2, h3, off, h4⟩ := two_history exSignedCodec exTypedArgs exTwo (exConfig exSignedCodec) o exMoments rfl exMoments_fresh
    (fun i => ⟨(ho i).1, (ho i).2.1⟩) (fun _ => "P") (fun _ => rfl) [] (utf8 "P") rfl
  refine ⟨s, _, h, ?_⟩
  refine C101_killed h (by decide) exTwo_clean exSigned_same false 0 (o false) exSignedCodec (os "/b/f.toml") "P" rfl (ho false).2.1 rfl
    2 4 (by decide) h1 h2 ?_ off h4
  intro j m o' cd' p' g1 g2 g3 g4
  cases m with
  | succ m => simp at g1
  | zero =>
    cases j
    · exact absurd g4 h2
    · exact absurd g4 h3

/-- At any moment of such a history the other places are as they were. -/
example (s : Nat → (Bool × Nat → Writer) × World) (writes : Bool → List Wrote) (T : Nat)
    (h : Together exB1 ⟨exSignedCodec, exSignedCodec⟩ exTypedArgs exTwo exFresh s (exConfig exSignedCodec) writes) :
    (s T).2.disk 1 = .absent none := by
  rcases (C101_any_moment h (by decide) T).2 1 with h1 | ⟨-, bs, -, ⟨text, i, dv, -, l, hl, hi, p, hp, hs, -⟩, -⟩
  · exact h1
  · exfalso
    simp only [exTypedArgs, List.mem_cons, List.not_mem_nil, or_false] at hl
    rcases hl with rfl | rfl
    · cases hi
    · have : p = os "/b/f.toml" := by
        have h0 : (layerCandidates exB1 exFresh "f" ⟨"two", [.path "/b"], some true⟩).head? = some (os "/b/f.toml") := by decide
        rw [show exTypedArgs.fileName = "f" from rfl, h0] at hp
        exact (Option.some.inj hp).symm
      subst this
      revert hs; decide

def exOptConfig (cd : Codec) : Config := register exB1 ⟨cd, cd⟩ [.memory "default" exOptDefaults, .file "one" (os "/b/f.toml")]

theorem exOpt_runs (cd : Codec) (i : Bool) : ∃ o : Wrote,
    createConfigR exB1 ⟨cd, cd⟩ (programOf exOptArgs (fun _ => exOptArgs.default) i) [⟨exFresh, fun _ => exFresh, exFresh, exFresh⟩] =
      .ok (exOptConfig cd, [o]) ∧
      o.through = .file (textHandler cd) (os "/b/f.toml") ∧ o.value = exOptDefaults := by
  cases i
  · exact ⟨_, rfl, rfl, rfl⟩
  · exact ⟨_, rfl, rfl, rfl⟩

/-- The same program twice at once with TOML and `None` among the defaults. -/
example : ∃ (s : Nat → (Bool × Nat → Writer) × World) (c : Bool → Config) (writes : Bool → List Wrote),
    Together exB1 ⟨exToml, exToml⟩ exOptArgs (fun _ => exOptArgs.default) exFresh s c writes ∧ (∀ i, (s 5).1 (i, 0) ≠ .start) ∧
    ∃ v, (c true).buildValue (s 5).2 false = .ok v ∧ AlikeBelowLists exOptDefaults v := by
  have hrun := exOpt_runs exToml
  choose o h1 h2 h3 using hrun
  obtain ⟨text, htext⟩ := ((exToml_like 80).prints exOptDefaults).2 exOpt_holds
  obtain ⟨s, h, hd, hst, -⟩ := two_history exToml exOptArgs (fun _ => exOptArgs.default) (fun _ => exOptConfig exToml) o [⟨exFresh, fun _ => exFresh, exFresh, exFresh⟩] rfl
    (by simp) (fun i => ⟨h1 i, h2 i⟩) (fun _ => text) (fun i => by rw [h3 i]; exact htext) (utf8 text) [] (by simp)
  refine ⟨s, _, _, h, hst, ?_⟩
  obtain ⟨⟨v, hv, ha, -⟩, -⟩ := C101_toml h (by decide) (fun _ => exOpt_clean) (by
    intro i j dv dv' e1 e2 p cd hf
    rw [e1] at e2; cases e2; rfl) 5 hd true exOptDefaults exOpt_dv exOpt_formats 0 false
  exact ⟨v, hv, ha⟩

/-! ### What happens when the texts differ -/

/-- A format that writes entries in the order in which the map yields them, and reads both orders. -/
def exOrderCodec : Codec :=
  { parse := fun s =>
      if s = "port = 8080\nhosts = [a, b]\n" ∨ s = "hosts = [a, b]\nport = 8080\n" then
        .ok (.map [(.str "hosts", .seq [.str "a", .str "b"]), (.str "port", .int .i64 ⟨8080, by decide⟩)])
      else .error "syntax",
    print := fun d => match d with
      | .map ((.str "port", _) :: _) => .ok "port = 8080\nhosts = [a, b]\n"
      | _ => .ok "hosts = [a, b]\nport = 8080\n" }

/-- **C101**, the defect: with everything else as in the theorems above, but texts in the order of each process's own `HashMap`, two first
runs at once can leave a file that holds neither text (the kernel having split a write): neither process can build without skipping
errors, and no later run can. -/
theorem C101_mixture : ∃ (prog : MacroArgs) (fm : Formats) (defaults : Bool → List (String × Value)) (s : Nat → (Bool × Nat → Writer) × World)
    (c : Bool → Config) (writes : Bool → List Wrote) (T : Nat),
    Together exB1 fm prog defaults exFresh s c writes ∧ AllDone writes (s T) ∧ ("default" :: prog.layers.map LayerSpec.name).Nodup ∧
    (∀ i, CleanStart exB1 exFresh (programOf prog defaults i)) ∧ (defaults true).Perm (defaults false) ∧
    (∀ i dv, valueMapMacro (defaults i) = some dv → FaithfulOn fm dv) ∧
    (∀ i, ∃ e, (c i).buildValue (s T).2 false = .error e) ∧
    (∀ i, ∃ c' e, createConfig exB1 fm (s T).2 (programOf prog defaults i) = .ok (c', (s T).2) ∧ c'.buildValue (s T).2 false = .error e) := by
  obtain ⟨o, ho⟩ := exTwo_runs exOrderCodec
  obtain ⟨s, h, hd, -, hw, -⟩ := two_history exOrderCodec exTypedArgs exTwo (exConfig exOrderCodec) o exMoments rfl exMoments_fresh
    (fun i => ⟨(ho i).1, (ho i).2.1⟩)
    (fun i => match i with | false => "port = 8080\nhosts = [a, b]\n" | true => "hosts = [a, b]\nport = 8080\n")
    (fun i => by rw [(ho i).2.2]; cases i <;> rfl) (utf8 "hosts = [a, b]\n") (utf8 "port = 8080\n") (by decide +kernel)
  have hbad : overwrite (overwrite [] 0 (utf8 "port = 8080\nhosts = [a, b]\n")) (utf8 "hosts = [a, b]\n").length (utf8 "port = 8080\n") =
      utf8 "port = 8080\nhosport = 8080\n" := by decide +kernel
  dsimp only at hw
  rw [hbad] at hw
  refine ⟨exTypedArgs, ⟨exOrderCodec, exOrderCodec⟩, exTwo, s, exConfig exOrderCodec, _, 5, h, hd, by decide, exTwo_clean,
    List.Perm.swap _ _ _, ?_, ?_, ?_⟩
  · intro i dv hdv fmt hf text hp
    have hf : fmt = exOrderCodec := by rcases hf with h | h <;> exact h
    subst hf
    have hpar : exOrderCodec.parse text =
        .ok (.map [(.str "hosts", .seq [.str "a", .str "b"]), (.str "port", .int .i64 ⟨8080, by decide⟩)]) := by
      cases i <;> cases hdv <;> cases hp
      · simp [exOrderCodec]
      · simp [exOrderCodec]
    refine ⟨_, hpar, ?_⟩
    have hperm : ([("hosts", .array [.string "a", .string "b"]), ("port", .uInteger ⟨8080, by decide⟩)] : Entries).Perm (exTwo i) := by
      cases i
      · exact List.Perm.swap _ _ _
      · exact List.Perm.refl _
    have hdv' : dv = .map (exTwo i) := by cases i <;> cases hdv <;> rfl
    subst hdv'
    refine .map _ hperm rfl ?_ ?_
    · rintro (_ | _ | i) k x k' d h1 h2
      · simp at h1 h2; obtain ⟨rfl, rfl⟩ := h1; obtain ⟨rfl, rfl⟩ := h2; exact .str _
      · simp at h1 h2; obtain ⟨rfl, rfl⟩ := h1; obtain ⟨rfl, rfl⟩ := h2; exact .str _
      · simp at h1
    · rintro (_ | _ | i) k x k' d h1 h2
      · simp at h1 h2; obtain ⟨rfl, rfl⟩ := h1; obtain ⟨rfl, rfl⟩ := h2
        refine .array rfl ?_
        rintro (_ | _ | i) x d h1 h2
        · simp at h1 h2; subst h1; subst h2; exact .str _
        · simp at h1 h2; subst h1; subst h2; exact .str _
        · simp at h1
      · simp at h1 h2; obtain ⟨rfl, rfl⟩ := h1; obtain ⟨rfl, rfl⟩ := h2; exact .int rfl rfl
      · simp at h1
  · intro i
    rw [hw]
    have : (match (exConfig exOrderCodec i).buildValue (exFresh.put 2 (.file (utf8 "port = 8080\nhosport = 8080\n") none none)) false with
      | .error _ => true | .ok _ => false) = true := by cases i <;> decide +kernel
    revert this
    cases (exConfig exOrderCodec i).buildValue (exFresh.put 2 (.file (utf8 "port = 8080\nhosport = 8080\n") none none)) false with
    | error e => exact fun _ => ⟨e, rfl⟩
    | ok v => intro h; cases h
  · intro i
    rw [hw]
    refine ⟨exConfigLater exOrderCodec i, ?_⟩
    have : (match (exConfigLater exOrderCodec i).buildValue (exFresh.put 2 (.file (utf8 "port = 8080\nhosport = 8080\n") none none)) false with
      | .error _ => true | .ok _ => false) = true := by cases i <;> decide +kernel
    revert this
    cases (exConfigLater exOrderCodec i).buildValue (exFresh.put 2 (.file (utf8 "port = 8080\nhosport = 8080\n") none none)) false with
    | error e => exact fun _ => ⟨e, by cases i <;> rfl, rfl⟩
    | ok v => intro h; cases h

end
end Verif.Props
