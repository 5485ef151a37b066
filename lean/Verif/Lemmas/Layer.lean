import Verif.Lemmas.Env
import Verif.Model.Crash
/-! # Lemmas about file layers -/
namespace Verif
open Spec

/-- The same world but for the node at one place. -/
def OnlyAt (slot : Nat) (w w' : World) : Prop :=
  w' = { w with disk := w'.disk } ∧ ∀ s, s ≠ slot → w'.disk s = w.disk s

theorem OnlyAt.refl (slot : Nat) (w : World) : OnlyAt slot w w := ⟨rfl, fun _ _ => rfl⟩

theorem OnlyAt.trans {slot : Nat} {w w' w'' : World} (h : OnlyAt slot w w') (h' : OnlyAt slot w' w'') : OnlyAt slot w w'' := by
  refine ⟨?_, fun s hs => by rw [h'.2 s hs, h.2 s hs]⟩
  rw [h'.1, h.1]

theorem onlyAt_put (w : World) (slot : Nat) (n : Node) : OnlyAt slot w (w.put slot n) :=
  ⟨rfl, fun s hs => by simp [World.put, hs]⟩

theorem onlyAt_append (w : World) (slot : Nat) (bs : List UInt8) : OnlyAt slot w (w.appendBytes slot bs) := by
  unfold World.appendBytes
  split
  · exact onlyAt_put _ _ _
  · exact OnlyAt.refl _ _

theorem OnlyAt.locate {slot : Nat} {w w' : World} (h : OnlyAt slot w w') : w'.locate = w.locate := by rw [h.1]

theorem onlyAt_open {w w1 : World} {p : OsStr} (h : w.openTrunc p = .ok w1) :
    OnlyAt (w.locate p) w w1 ∧ ∃ r, w1.disk (w.locate p) = .file [] r none ∧
      (w.disk (w.locate p) = .absent none ∧ r = none ∨ ∃ bs, w.disk (w.locate p) = .file bs r none) := by
  unfold World.openTrunc at h
  split at h
  · cases h
  · rename_i hd
    cases h
    exact ⟨onlyAt_put _ _ _, none, by simp [World.put], Or.inl ⟨hd, rfl⟩⟩
  · cases h
  · cases h
  · rename_i bs r hd
    cases h
    exact ⟨onlyAt_put _ _ _, r, by simp [World.put], Or.inr ⟨bs, hd⟩⟩

theorem append_file {w : World} {slot : Nat} {bs : List UInt8} {r wr : Option Nat} (h : w.disk slot = .file bs r wr)
    (more : List UInt8) : (w.appendBytes slot more).disk slot = .file (bs ++ more) r wr := by
  unfold World.appendBytes
  rw [h]; simp [World.put]

theorem pathExists_congr {w w' : World} {p : OsStr} (h : w'.disk (w'.locate p) = w.disk (w.locate p)) :
    w'.pathExists p = w.pathExists p := by
  unfold World.pathExists; rw [h]

theorem readToString_congr {w w' : World} {p : OsStr} (h : w'.disk (w'.locate p) = w.disk (w.locate p)) :
    w'.readToString p = w.readToString p := by
  unfold World.readToString; rw [h]

/-- What `std::fs::write` does, by case. -/
theorem fsWrite_cases (w : World) (p : OsStr) (content : String) :
    (∃ e, w.fsWrite p content = (.error e, w) ∧ w.openTrunc p = .error e) ∨
    (∃ n code w1, w.openTrunc p = .ok w1 ∧ w.room (w.locate p) = some (n, code) ∧ n < (utf8 content).length ∧
      w.fsWrite p content = (.error (.refused code), w1.appendBytes (w.locate p) ((utf8 content).take n))) ∨
    (∃ w1, w.openTrunc p = .ok w1 ∧ (∀ n code, w.room (w.locate p) = some (n, code) → (utf8 content).length ≤ n) ∧
      w.fsWrite p content = (.ok (), w1.appendBytes (w.locate p) (utf8 content))) := by
  unfold World.fsWrite
  cases ho : w.openTrunc p with
  | error e => left; exact ⟨e, rfl, rfl⟩
  | ok w1 =>
    right
    cases hr : w.room (w.locate p) with
    | none => right; exact ⟨w1, rfl, (by intro n code h; cases h), rfl⟩
    | some nc =>
      obtain ⟨n, code⟩ := nc
      by_cases h : n < (utf8 content).length
      · left; exact ⟨n, code, w1, rfl, rfl, h, by simp [h]⟩
      · right; refine ⟨w1, rfl, ?_, by simp [h]⟩
        intro n' code' h'; cases h'; omega

/-- Reading a file that holds a text. -/
theorem read_text {w : World} {p : OsStr} {s : String} {wr : Option Nat}
    (h : w.disk (w.locate p) = .file (utf8 s) none wr) : w.readToString p = .ok s ∧ w.pathExists p = true := by
  constructor
  · unfold World.readToString; rw [h]; simp [ofUtf8_utf8]
  · unfold World.pathExists; rw [h]

theorem readToString_ok {w : World} {p : OsStr} {s : String} :
    w.readToString p = .ok s ↔ ∃ wr, w.disk (w.locate p) = .file (utf8 s) none wr := by
  constructor
  · intro h
    unfold World.readToString at h
    split at h
    · cases h
    · cases h
    · cases h
    · rename_i bs wr hd
      split at h
      · rename_i s' hs
        cases h
        exact ⟨wr, by rw [hd, utf8_of_ofUtf8 hs]⟩
      · cases h
  · rintro ⟨wr, h⟩; exact (read_text h).1

/-- Reading through a text format. -/
theorem textHandler_read (c : Codec) (w : World) (p : OsStr) (v : Value) :
    (textHandler c).read w p = .ok v ↔
      ∃ text doc, w.readToString p = .ok text ∧ c.parse text = .ok doc ∧ visit doc = .ok v := by
  simp only [textHandler]
  cases hr : w.readToString p with
  | error e => simp
  | ok text =>
    simp only [Except.ok.injEq, exists_and_left]
    cases hp : c.parse text with
    | error m => simp [hp]
    | ok doc =>
      cases hv : visit doc with
      | error m => simp [hp, hv]
      | ok x => simp [hp, hv]

/-- Worlds during `std::fs::write`. -/
theorem writeSteps_inv {p : OsStr} {content : String} {w : World} {s : Phase × World}
    (h : WriteSteps p content (.start, w) s) :
    s = (.start, w) ∨ ∃ done rest w1, s.1 = .writing rest ∧ done ++ rest = utf8 content ∧ w.openTrunc p = .ok w1 ∧
      s.2 = w1.appendBytes (w.locate p) done := by
  generalize ha : ((.start, w) : Phase × World) = a at h
  induction h with
  | refl => exact Or.inl rfl
  | step hs st ih =>
    subst ha
    right
    cases st with
    | opened ho =>
      rename_i w2 w1
      rcases ih with h | ⟨done, rest, w3, h, _⟩
      · cases h
        refine ⟨[], utf8 content, w1, rfl, rfl, ho, ?_⟩
        obtain ⟨-, r, hd, -⟩ := onlyAt_open ho
        simp only []
        unfold World.appendBytes
        rw [hd]
        simp only [World.put, List.append_nil]
        have : (fun s => if s = w.locate p then Node.file [] r none else w1.disk s) = w1.disk := by
          funext s
          split
          · rename_i e; rw [e, hd]
          · rfl
        rw [this]
      · cases h
    | piece =>
      rename_i w2 piece rest
      rcases ih with h | ⟨done, rest', w3, h1, h2, h3, h4⟩
      · cases h
      · cases h1
        dsimp only at h4
        subst h4
        refine ⟨done ++ piece, rest, w3, rfl, by rw [List.append_assoc]; exact h2, h3, ?_⟩
        obtain ⟨hat, r, hd, -⟩ := onlyAt_open h3
        have hl : (w3.appendBytes (w.locate p) done).locate p = w.locate p := by
          rw [((onlyAt_append w3 (w.locate p) done)).locate, hat.locate]
        dsimp only
        rw [hl]
        have hd2 := append_file hd done
        rw [World.appendBytes, hd2]
        unfold World.appendBytes
        rw [hd]
        simp only [World.put, List.nil_append]
        congr 1
        funext s
        by_cases hs : s = w.locate p <;> simp [hs]

end Verif
