import Verif.Lemmas.Writers
import Verif.Props.Layers
/-!
# C72, C73: readers and writers of one file in several processes

The file operations of the crate are `std::fs::read_to_string` and `std::fs::write`, which work in pieces
(`Verif.Model.Writers`). Nothing locks the file.
-/
namespace Verif.Props
open Spec

/-! ## C72: reading while another process writes -/

/-- **C72.** Reading in pieces a file nobody writes gives the layer's value: the bytes, whatever the pieces are. -/
theorem C72_alone (fmt : Codec) (path : OsStr) (w : World) (bytes : List UInt8) (wr : Option Nat)
    (hd : w.disk (w.locate path) = .file bytes none wr) :
    (∃ got, ReadRun (fun _ => bytes) 0 [] got) ∧
    ∀ got, ReadRun (fun _ => bytes) 0 [] got →
      got = bytes ∧ valueOfBytes fmt got = (Layer.file (textHandler fmt) path).readValue w := by
  constructor
  · cases hb : bytes with
    | nil => exact ⟨[], .eof (by simp)⟩
    | cons x xs =>
      refine ⟨x :: xs, .piece (xs.length + 1) (by omega) (by simp) ?_⟩
      have : ReadRun (fun _ => x :: xs) 1 (x :: xs) (x :: xs) := .eof (le_refl _)
      simpa using this
  · intro got h
    have hg := readRun_const h (List.nil_prefix)
    subst hg
    refine ⟨rfl, ?_⟩
    have hex : w.pathExists path = true := by unfold World.pathExists; rw [hd]
    simp only [Layer.readValue, hex, if_true, textHandler, valueOfBytes, World.readToString, hd]
    cases ofUtf8 got <;> rfl

/-- **C72.** Whatever others do to the bytes of the file: every byte the reader gets was in the file at its position
at some moment during the call, and the moments do not go back. -/
theorem C72_moments (cs : Nat → List UInt8) (got : List UInt8) (h : ReadRun cs 0 [] got) :
    ∃ when : Nat → Nat, (∀ i j, i ≤ j → when i ≤ when j) ∧ ∀ i, i < got.length → (cs (when i))[i]? = got[i]? := by
  obtain ⟨when, -, h2, -, h4⟩ := readRun_bytes h
  exact ⟨when, h2, fun i hi => h4 i (by simp) hi⟩

/-- **C72.** A reader during one `std::fs::write` by another process gets a beginning of the old bytes continued by the
new bytes at the same positions; the new bytes if it was late enough. -/
theorem C72_torn (path : OsStr) (content : String) (w : World) (s : Nat → Phase × World)
    (h0 : WriteSteps path content (.start, w) (s 0)) (hs : ∀ t, WriteSteps path content (s t) (s (t + 1)))
    (got : List UInt8) (h : ReadRun (fun t => (s t).2.bytesAt (w.locate path)) 0 [] got) :
    (∃ n m, n ≤ (w.bytesAt (w.locate path)).length ∧
      got = (w.bytesAt (w.locate path)).take n ++ ((utf8 content).drop n).take m) ∧
    ((s 0).1 = .writing [] → got = utf8 content) := by
  have hall : ∀ t, WriteSteps path content (.start, w) (s t) := by
    intro t
    induction t with
    | zero => exact h0
    | succ t ih => exact ih.trans (hs t)
  have hmono : ∀ a b, a ≤ b → WriteSteps path content (s a) (s b) := by
    intro a b hab
    induction hab with
    | refl => exact .refl
    | step _ ih => exact ih.trans (hs _)
  constructor
  · apply readRun_mix (fun t => (s t).1 ≠ .start) (fun a b hab ha => writeSteps_writing (hmono a b hab) ha) _ _ h
    · intro t ht
      rw [(writeSteps_bytes (hall t)).1 (not_not.1 ht)]
    · intro t ht
      exact (writeSteps_bytes (hall t)).2.1 ht
  · intro hfin
    have hend : ∀ a b, WriteSteps path content a b → a.1 = .writing [] → b.1 = .writing [] := by
      intro a b hab ha
      induction hab with
      | refl => exact ha
      | step _ st ih =>
        cases st with
        | opened ho => cases ih
        | piece =>
          rename_i piece rest _
          have : piece ++ rest = [] := by simpa using ih
          rw [(List.append_eq_nil_iff.1 this).2]
    have hc : (fun t => (s t).2.bytesAt (w.locate path)) = fun _ => utf8 content := by
      funext t
      exact (writeSteps_bytes (hall t)).2.2 (hend _ _ (hmono 0 t (Nat.zero_le _)) hfin)
    rw [hc] at h
    exact readRun_const h (List.nil_prefix)

/-- **C72.** If the other process writes the bytes that are there already, or creates the file, the reader gets a beginning
of the written text. -/
theorem C72_prefix (path : OsStr) (content : String) (w : World) (s : Nat → Phase × World)
    (h0 : WriteSteps path content (.start, w) (s 0)) (hs : ∀ t, WriteSteps path content (s t) (s (t + 1)))
    (hold : w.bytesAt (w.locate path) = utf8 content ∨ w.pathExists path = false)
    (got : List UInt8) (h : ReadRun (fun t => (s t).2.bytesAt (w.locate path)) 0 [] got) :
    got <+: utf8 content := by
  obtain ⟨⟨n, m, hn, rfl⟩, -⟩ := C72_torn path content w s h0 hs got h
  rcases hold with e | e
  · rw [e]
    refine ⟨((utf8 content).drop n).drop m, ?_⟩
    rw [List.append_assoc, List.take_append_drop, List.take_append_drop]
  · have : w.bytesAt (w.locate path) = [] := by
      unfold World.pathExists at e
      unfold World.bytesAt
      split at e
      · rename_i hd; rw [hd]
      · cases e
    rw [this] at hn ⊢
    simp at hn
    subst hn
    simpa using List.take_prefix _ _

/-- The example's file `/a.toml` (`hi`) while another process writes `yo` to it: opened, written whole, done. -/
def exRewrite : Nat → Phase × World := fun t =>
  if t = 0 then (.start, exDisk) else (.writing [], (exDisk.put 1 (.file [] none none)).put 1 (.file (utf8 "yo") none none))

theorem exRewrite_steps : ∀ t, WriteSteps (os "/a.toml") "yo" (exRewrite t) (exRewrite (t + 1)) := by
  intro t
  cases t with
  | zero =>
    refine .step (.step .refl (.opened rfl)) ?_
    have h := @WriteStep.piece (os "/a.toml") "yo" (exDisk.put 1 (.file [] none none)) (utf8 "yo") []
    exact h
  | succ t => exact .refl

/-- **C72**, the defect: nothing protects a reader from a mixture that was never in the file: here `ho`, which the layer
then parses like any other text. -/
theorem C72_mixture : ∃ (path : OsStr) (content : String) (w : World) (s : Nat → Phase × World) (got : List UInt8),
    WriteSteps path content (.start, w) (s 0) ∧ (∀ t, WriteSteps path content (s t) (s (t + 1))) ∧
    ReadRun (fun t => (s t).2.bytesAt (w.locate path)) 0 [] got ∧
    (∀ t, got ≠ (s t).2.bytesAt (w.locate path)) ∧
    (valueOfBytes exCodec got = .ok (.map [("text", .string "ho")])) := by
  refine ⟨os "/a.toml", "yo", exDisk, exRewrite, utf8 "ho", .refl, exRewrite_steps, ?_, ?_, rfl⟩
  · refine .piece 1 (by omega) (by decide) (.piece 1 (by omega) (by decide) (.eof (by decide)))
  · intro t
    by_cases h : t = 0
    · subst h; decide
    · simp only [exRewrite, h, if_false]; decide

/-! ### C72 at work on this run -/

/-- Alone, the reader gets what is there. -/
example (got : List UInt8) (h : ReadRun (fun _ => utf8 "hi") 0 [] got) :
    got = utf8 "hi" ∧ valueOfBytes exCodec got = (Layer.file (textHandler exCodec) (os "/a.toml")).readValue exDisk :=
  (C72_alone exCodec (os "/a.toml") exDisk (utf8 "hi") none rfl).2 got h

/-- Each byte was there at some moment, in order; and the whole is a beginning of the old text continued by the new. -/
example (got : List UInt8) (h : ReadRun (fun t => (exRewrite t).2.bytesAt (exDisk.locate (os "/a.toml"))) 0 [] got) :
    (∃ when : Nat → Nat, (∀ i j, i ≤ j → when i ≤ when j) ∧
      ∀ i, i < got.length → ((exRewrite (when i)).2.bytesAt (exDisk.locate (os "/a.toml")))[i]? = got[i]?) ∧
    ∃ n m, n ≤ 2 ∧ got = (utf8 "hi").take n ++ ((utf8 "yo").drop n).take m :=
  ⟨C72_moments _ got h, (C72_torn (os "/a.toml") "yo" exDisk exRewrite .refl exRewrite_steps got h).1⟩

/-- A new file: a reader gets a beginning of the text. -/
example (got : List UInt8) :
    let s : Nat → Phase × World := fun t => if t = 0 then (.start, exDisk) else
      (.writing [], (exDisk.put 3 (.file [] none none)).put 3 (.file (utf8 "yo") none none))
    ReadRun (fun t => (s t).2.bytesAt (exDisk.locate (os "/z.toml"))) 0 [] got → got <+: utf8 "yo" := by
  intro s h
  refine C72_prefix (os "/z.toml") "yo" exDisk s .refl ?_ (Or.inr (by decide)) got h
  intro t
  cases t with
  | zero =>
    refine .step (.step .refl (.opened rfl)) ?_
    have h := @WriteStep.piece (os "/z.toml") "yo" (exDisk.put 3 (.file [] none none)) (utf8 "yo") []
    exact h
  | succ t => exact .refl

/-! ## C73: several processes writing -/

section
variable {ι : Type} [DecidableEq ι]

/-- **C73.** Whatever writers do in whatever interleaving, they touch nothing but the one file. -/
theorem C73_nothing_else (path : OsStr) (texts : ι → String) (ph : ι → Writer) (w w' : World) (acts : List (Act ι))
    (h : WritersRun path texts (fun _ => .start, w) acts (ph, w')) :
    w' = { w with disk := w'.disk } ∧ ∀ s, s ≠ w.locate path → w'.disk s = w.disk s := onlyAt_run h

/-- **C73.** Once the process that opened the file last has written all its bytes, the file holds exactly its text, if
every process that wrote after that opening writes the same text (or there is no other). -/
theorem C73_last_opener (path : OsStr) (texts : ι → String) (ph : ι → Writer) (w w' : World)
    (before after : List (Act ι)) (i : ι) (off : Nat)
    (h : WritersRun path texts (fun _ => .start, w) (before ++ .opens i :: after) (ph, w'))
    (hlast : ∀ j, Act.opens j ∉ after) (hsame : ∀ j, Act.writes j ∈ after → texts j = texts i)
    (hfin : ph i = .writing off []) :
    ∃ r, w'.disk (w.locate path) = .file (utf8 (texts i)) r none ∧ (r = none → w'.readToString path = .ok (texts i)) := by
  have hp0 : Placed texts (fun _ => Writer.start) := (fun i off rest h => by cases h)
  obtain ⟨s1, hr1, hr2⟩ := run_append h
  rw [show Act.opens i :: after = [Act.opens i] ++ after from rfl] at hr2
  obtain ⟨s2, hr3, hr4⟩ := run_append hr2
  have hloc1 : s1.2.locate path = w.locate path := by rw [(onlyAt_run hr1).locate]
  have hp2 := placed_run hr3 (placed_run hr1 hp0)
  have hstep : WritersStep path texts s1 (.opens i) s2 := by
    generalize ha : [Act.opens i] = acts at hr3
    cases hr3 with
    | nil => cases ha
    | @snoc s' s'' as a hr st =>
      have := List.append_inj' (show [] ++ [Act.opens i] = as ++ [a] from ha) rfl
      obtain ⟨e1, e2⟩ := this
      subst e1
      cases e2
      rw [run_nil hr]
      exact st
  have hloc2 : s2.2.locate path = w.locate path := by rw [(onlyAt_step hstep).locate, hloc1]
  have hs2 : s2.1 i = .writing 0 (utf8 (texts i)) ∧ Covers (s2.2.locate path) (utf8 (texts i)) 0 s2.2 := by
    rw [hloc2]
    cases hstep with
    | opens i h0 ho =>
      obtain ⟨-, r, hd, -⟩ := onlyAt_open ho
      dsimp only at hloc1 hd ⊢
      rw [hloc1] at hd
      exact ⟨by simp, ⟨[], r, hd, by simp, fun k hk => by omega⟩⟩
  obtain ⟨off', rest', h1, ⟨bs, r, hd, hl, hk⟩⟩ := covers_run hr4 hp2 hlast hsame hs2.1 hs2.2
  dsimp only at h1 hd
  rw [hfin] at h1
  cases h1
  have hpl := placed_run hr4 hp2 i off [] hfin
  have hoff : (utf8 (texts i)).length ≤ off := by
    have := congrArg List.length hpl.2
    rw [List.length_drop] at this
    simp only [List.length_nil] at this
    omega
  have hbs : bs = utf8 (texts i) := by
    apply List.ext_getElem?
    intro k
    by_cases hk2 : k < off
    · exact hk k hk2
    · rw [List.getElem?_eq_none (by omega), List.getElem?_eq_none (by omega)]
  rw [hloc2] at hd
  subst hbs
  refine ⟨r, hd, fun hr => ?_⟩
  subst hr
  have hl' : w'.locate path = w.locate path := by rw [(onlyAt_run h).locate]
  exact (read_text (wr := none) (by rw [hl']; exact hd)).1

/-- In every run in which someone has begun, someone was the last to open. -/
theorem run_last_open {path : OsStr} {texts : ι → String} {s s' : (ι → Writer) × World} {acts : List (Act ι)}
    (h : WritersRun path texts s acts s') :
    ((∀ j, Act.opens j ∉ acts) ∧ ∀ j, s.1 j = .start → s'.1 j = .start) ∨
    ∃ before i after, acts = before ++ .opens i :: after ∧ (∀ j, Act.opens j ∉ after) ∧ s'.1 i ≠ .start := by
  induction h with
  | nil => left; simp
  | @snoc s1 s2 acts a h st ih =>
    cases st with
    | opens i h0 ho => right; exact ⟨acts, i, [], rfl, by simp, by simp⟩
    | writes i h0 =>
      rcases ih with ⟨h1, h2⟩ | ⟨before, j, after, rfl, h1, h2⟩
      · left
        refine ⟨fun j hj => ?_, fun j hj => ?_⟩
        · simp at hj; exact h1 j hj
        · by_cases e : j = i
          · subst e; have := h2 j hj; dsimp only at this; rw [h0] at this; cases this
          · simp [Function.update_of_ne e]; exact h2 j hj
      · right
        refine ⟨before, j, after ++ [.writes i], by simp, ?_, ?_⟩
        · intro k hk; simp at hk; exact h1 k hk
        · by_cases e : j = i
          · subst e; simp
          · simp [Function.update_of_ne e]; exact h2

/-- **C73.** Any number of processes writing the same text (as when several first runs initialise one configuration), in
any interleaving: once all that have begun are done, the file holds exactly that text. -/
theorem C73_same_text (path : OsStr) (text : String) (ph : ι → Writer) (w w' : World) (acts : List (Act ι))
    (h : WritersRun path (fun _ => text) (fun _ => .start, w) acts (ph, w'))
    (hdone : ∀ i, ph i = .start ∨ ∃ off, ph i = .writing off []) (hsome : ∃ i, ph i ≠ .start) :
    ∃ r, w'.disk (w.locate path) = .file (utf8 text) r none ∧ (r = none → w'.readToString path = .ok text) := by
  rcases run_last_open h with ⟨-, h2⟩ | ⟨before, i, after, rfl, h1, h2⟩
  · obtain ⟨i, hi⟩ := hsome
    exact absurd (h2 i rfl) hi
  · rcases hdone i with h3 | ⟨off, h3⟩
    · exact absurd h3 h2
    · exact C73_last_opener path _ ph w w' before after i off h h1 (fun _ _ => rfl) h3

/-- **C73.** With different texts, every byte in the file stems from the text of a process that has begun, from the same
position, or is a zero; or nobody has begun and the world is as before. -/
theorem C73_bytes (path : OsStr) (texts : ι → String) (ph : ι → Writer) (w w' : World) (acts : List (Act ι))
    (h : WritersRun path texts (fun _ => .start, w) acts (ph, w')) :
    (w' = w ∧ ∀ i, ph i = .start) ∨
    ∃ bs r, w'.disk (w.locate path) = .file bs r none ∧
      ∀ (k : Nat) (x : UInt8), bs[k]? = some x → x = 0 ∨ ∃ i, ph i ≠ .start ∧ (utf8 (texts i))[k]? = some x := by
  generalize hs : ((fun _ => Writer.start : ι → Writer), w) = s at h
  generalize hs' : (ph, w') = s' at h
  induction h generalizing ph w' with
  | nil => subst hs; cases hs'; left; exact ⟨rfl, fun _ => rfl⟩
  | @snoc s1 s2 acts a h st ih =>
    subst hs
    right
    have hloc : s1.2.locate path = w.locate path := by rw [(onlyAt_run h).locate]
    cases st with
    | @opens ph1 w1 w2 i h0 ho =>
      cases hs'
      obtain ⟨-, r, hd, -⟩ := onlyAt_open ho
      dsimp only at hloc
      rw [hloc] at hd
      exact ⟨[], r, hd, by simp⟩
    | @writes ph1 w1 i off piece rest h0 =>
      cases hs'
      have hp := placed_run h (fun i off rest h => by cases h) i _ _ h0
      dsimp only at hloc
      rcases ih ph1 w1 rfl with ⟨-, h2⟩ | ⟨bs, r, hd, hb⟩
      · rw [h2 i] at h0; cases h0
      · have keep : ∀ j, ph1 j ≠ .start → Function.update ph1 i (.writing (off + piece.length) rest) j ≠ .start := by
          intro j hj
          by_cases e : j = i
          · subst e; simp
          · simpa [Function.update_of_ne e] using hj
        refine ⟨_, r, by rw [hloc]; exact writeAt_file hd off piece, fun k x hk => ?_⟩
        have old : bs[k]? = some x → x = 0 ∨ ∃ j, Function.update ph1 i (.writing (off + piece.length) rest) j ≠ .start ∧
            (utf8 (texts j))[k]? = some x := by
          intro hx
          rcases hb k x hx with h | ⟨j, h1, h2⟩
          · exact Or.inl h
          · exact Or.inr ⟨j, keep j h1, h2⟩
        rw [overwrite_get] at hk
        split at hk
        · exact old hk
        · split at hk
          · split at hk
            · exact old hk
            · cases hk; exact Or.inl rfl
          · split at hk
            · right
              refine ⟨i, by simp, ?_⟩
              have : (utf8 (texts i)).drop off = piece ++ rest := hp.2.symm
              have h3 : k = off + (k - off) := by omega
              rw [h3, ← List.getElem?_drop, this, List.getElem?_append_left (by omega), hk]
            · exact old hk

end

/-- One process alone: the positions add nothing to the steps of `WriteSteps` (C19). -/
theorem C73_alone (path : OsStr) (content : String) (ph : Unit → Writer) (w w' : World) (acts : List (Act Unit))
    (h : WritersRun path (fun _ => content) (fun _ => .start, w) acts (ph, w')) :
    ∃ p, WriteSteps path content (.start, w) (p, w') ∧
      (ph () = .start → p = .start) ∧ (∀ off rest, ph () = .writing off rest → p = .writing rest ∧
        off = (w'.bytesAt (w.locate path)).length) := by
  generalize hs : ((fun _ => Writer.start : Unit → Writer), w) = s at h
  generalize hs' : (ph, w') = s' at h
  induction h generalizing ph w' with
  | nil => subst hs; cases hs'; exact ⟨.start, .refl, fun _ => rfl, (fun _ _ h => by cases h)⟩
  | @snoc s1 s2 acts a h st ih =>
    subst hs
    have hloc : s1.2.locate path = w.locate path := by rw [(onlyAt_run h).locate]
    cases st with
    | @opens ph1 w1 w2 i h0 ho =>
      cases hs'
      obtain ⟨p, h1, h2, -⟩ := ih ph1 w1 rfl
      rw [h2 h0] at h1
      refine ⟨_, .step h1 (.opened ho), (fun h => by simp at h), fun off rest h => ?_⟩
      simp at h
      obtain ⟨rfl, rfl⟩ := h
      refine ⟨rfl, ?_⟩
      obtain ⟨-, r, hd, -⟩ := onlyAt_open ho
      dsimp only at hloc
      rw [hloc] at hd
      simp [World.bytesAt, hd]
    | @writes ph1 w1 i off piece rest h0 =>
      cases hs'
      obtain ⟨p, h1, -, h2⟩ := ih ph1 w1 rfl
      obtain ⟨rfl, hoff⟩ := h2 off _ h0
      dsimp only at hloc
      have hfile : ∃ bs r wr, w1.disk (w.locate path) = .file bs r wr := by
        rcases writeSteps_inv h1 with e | ⟨done, rest', w2, e1, e2, e3, e4⟩
        · cases e
        · obtain ⟨-, r, hd, -⟩ := onlyAt_open e3
          dsimp only at e4
          rw [e4]
          exact ⟨_, _, _, append_file hd done⟩
      obtain ⟨bs, r, wr, hd⟩ := hfile
      have hb : w1.bytesAt (w.locate path) = bs := by simp [World.bytesAt, hd]
      rw [hb] at hoff
      subst hoff
      have heq : w1.writeAt (w1.locate path) bs.length piece = w1.appendBytes (w1.locate path) piece := by
        rw [hloc]
        simp [World.writeAt, World.appendBytes, hd, overwrite_end]
      refine ⟨.writing rest, ?_, (fun h => by simp at h), fun off' rest' h => ?_⟩
      · rw [heq]; exact .step h1 .piece
      · simp at h
        obtain ⟨rfl, rfl⟩ := h
        refine ⟨rfl, ?_⟩
        rw [heq, hloc]
        simp [World.bytesAt, append_file hd piece]

/-! ### What can go wrong -/

/-- A run given by its states. -/
theorem run_cons2 {ι : Type} [DecidableEq ι] {path : OsStr} {texts : ι → String} {s s' s'' : (ι → Writer) × World}
    {acts : List (Act ι)} {a : Act ι} (st : WritersStep path texts s a s') (h : WritersRun path texts s' acts s'') :
    WritersRun path texts s (a :: acts) s'' := by
  induction h with
  | nil => exact .snoc (acts := []) .nil st
  | snoc _ st' ih => exact .snoc (acts := a :: _) ih st'

/-- Two processes, `aaa` and `b`: the first writes a byte, the second opens and writes its byte, the first goes on. -/
def exTexts : Bool → String := fun i => if i then "aaa" else "b"

/-- **C73**, the defect: with different texts the file can end up with a mixture that is neither text, although both
processes report success. -/
theorem C73_mixture : ∃ (ph : Bool → Writer) (w' : World) (acts : List (Act Bool)),
    WritersRun (os "/a.toml") exTexts (fun _ => .start, exDisk) acts (ph, w') ∧
    (∀ i, ∃ off, ph i = .writing off []) ∧ w'.readToString (os "/a.toml") = .ok "baa" := by
  refine ⟨_, _, [.opens true, .writes true, .opens false, .writes false, .writes true],
    run_cons2 (.opens true rfl rfl) (run_cons2 (.writes true (piece := utf8 "a") (rest := utf8 "aa") rfl)
      (run_cons2 (.opens false rfl rfl) (run_cons2 (.writes false (piece := utf8 "b") (rest := []) rfl)
        (run_cons2 (.writes true (piece := utf8 "aa") (rest := []) rfl) .nil)))), ?_, ?_⟩
  · intro i
    cases i
    · exact ⟨_, rfl⟩
    · exact ⟨_, rfl⟩
  · rfl

/-- **C73**, the defect: if the last to open dies, the file can begin with zeros even though another process has written the
same text completely. -/
theorem C73_hole : ∃ (ph : Bool → Writer) (w' : World) (acts : List (Act Bool)),
    WritersRun (os "/a.toml") (fun _ => "ab") (fun _ => .start, exDisk) acts (ph, w') ∧
    (∃ off, ph true = .writing off []) ∧ w'.bytesAt (exDisk.locate (os "/a.toml")) = [0, 98] := by
  refine ⟨_, _, [.opens true, .writes true, .opens false, .writes true],
    run_cons2 (.opens true rfl rfl) (run_cons2 (.writes true (piece := utf8 "a") (rest := utf8 "b") rfl)
      (run_cons2 (.opens false rfl rfl) (run_cons2 (.writes true (piece := utf8 "b") (rest := []) rfl) .nil))), ?_, ?_⟩
  · exact ⟨_, rfl⟩
  · rfl

/-- Two processes writing the same text, interleaved: a run to which `C73_same_text` and `C73_last_opener` apply. -/
example : ∃ (ph : Bool → Writer) (w' : World) (acts : List (Act Bool)),
    WritersRun (os "/a.toml") (fun _ => "ab") (fun _ => .start, exDisk) acts (ph, w') ∧
    (∀ i, ph i = .start ∨ ∃ off, ph i = .writing off []) ∧ (∃ i, ph i ≠ .start) := by
  refine ⟨_, _, [.opens true, .writes true, .opens false, .writes true, .writes false],
    run_cons2 (.opens true rfl rfl) (run_cons2 (.writes true (piece := utf8 "a") (rest := utf8 "b") rfl)
      (run_cons2 (.opens false rfl rfl) (run_cons2 (.writes true (piece := utf8 "b") (rest := []) rfl)
      (run_cons2 (.writes false (piece := utf8 "ab") (rest := []) rfl) .nil)))), ?_, ?_⟩
  · intro i
    cases i
    · exact Or.inr ⟨_, rfl⟩
    · exact Or.inr ⟨_, rfl⟩
  · refine ⟨true, ?_⟩
    rw [Function.update_of_ne (by decide), Function.update_self]
    simp

/-! ### C73 at work -/

/-- The processes of `C73_mixture` touch nothing but the file, and every byte in it is from one of the texts at that place. -/
example (ph : Bool → Writer) (w' : World) (acts : List (Act Bool))
    (h : WritersRun (os "/a.toml") exTexts (fun _ => .start, exDisk) acts (ph, w')) :
    (∀ s, s ≠ 1 → w'.disk s = exDisk.disk s) ∧
    ((w' = exDisk ∧ ∀ i, ph i = .start) ∨ ∃ bs r, w'.disk 1 = .file bs r none ∧
      ∀ (k : Nat) (x : UInt8), bs[k]? = some x → x = 0 ∨ ∃ i, ph i ≠ .start ∧ (utf8 (exTexts i))[k]? = some x) :=
  ⟨(C73_nothing_else (os "/a.toml") exTexts ph exDisk w' acts h).2, C73_bytes (os "/a.toml") exTexts ph exDisk w' acts h⟩

/-- One process, then the other: the second one's text stays. -/
example : ∃ (ph : Bool → Writer) (w' : World), WritersRun (os "/a.toml") exTexts (fun _ => .start, exDisk)
      ([.opens true, .writes true] ++ .opens false :: [.writes false]) (ph, w') ∧
    ∃ r, w'.disk 1 = .file (utf8 "b") r none ∧ (r = none → w'.readToString (os "/a.toml") = .ok "b") := by
  have hrun : ∃ (ph : Bool → Writer) (w' : World), WritersRun (os "/a.toml") exTexts (fun _ => .start, exDisk)
      ([.opens true, .writes true] ++ .opens false :: [.writes false]) (ph, w') ∧ ∃ off, ph false = .writing off [] :=
    ⟨_, _, run_cons2 (.opens true rfl rfl) (run_cons2 (.writes true (piece := utf8 "a") (rest := utf8 "aa") rfl)
      (run_cons2 (.opens false rfl rfl) (run_cons2 (.writes false (piece := utf8 "b") (rest := []) rfl) .nil))), _, rfl⟩
  obtain ⟨ph, w', h, off, hoff⟩ := hrun
  exact ⟨ph, w', h, C73_last_opener (os "/a.toml") exTexts ph exDisk w' [.opens true, .writes true] [.writes false] false off h
    (by simp) (by intro j hj; simp at hj; rw [hj]) hoff⟩

/-- The interleaved run of two processes with the same text. -/
example : ∃ (ph : Bool → Writer) (w' : World) (acts : List (Act Bool)),
    WritersRun (os "/a.toml") (fun _ => "ab") (fun _ => .start, exDisk) acts (ph, w') ∧
    ∃ r, w'.disk 1 = .file (utf8 "ab") r none := by
  have hrun : ∃ (ph : Bool → Writer) (w' : World) (acts : List (Act Bool)),
      WritersRun (os "/a.toml") (fun _ => "ab") (fun _ => .start, exDisk) acts (ph, w') ∧
      (∀ i, ph i = .start ∨ ∃ off, ph i = .writing off []) ∧ (∃ i, ph i ≠ .start) := by
    refine ⟨_, _, [.opens true, .writes true, .opens false, .writes true, .writes false],
      run_cons2 (.opens true rfl rfl) (run_cons2 (.writes true (piece := utf8 "a") (rest := utf8 "b") rfl)
        (run_cons2 (.opens false rfl rfl) (run_cons2 (.writes true (piece := utf8 "b") (rest := []) rfl)
        (run_cons2 (.writes false (piece := utf8 "ab") (rest := []) rfl) .nil)))), ?_, ?_⟩
    · intro i
      cases i
      · exact Or.inr ⟨_, rfl⟩
      · exact Or.inr ⟨_, rfl⟩
    · refine ⟨true, ?_⟩
      rw [Function.update_of_ne (by decide), Function.update_self]
      simp
  obtain ⟨ph, w', acts, h, h1, h2⟩ := hrun
  obtain ⟨r, h3, -⟩ := C73_same_text (os "/a.toml") "ab" ph exDisk w' acts h h1 h2
  exact ⟨ph, w', acts, h, r, h3⟩

/-- A single process does what `fs::write` does alone. -/
example (ph : Unit → Writer) (w' : World) (acts : List (Act Unit))
    (h : WritersRun (os "/a.toml") (fun _ => "ab") (fun _ => .start, exDisk) acts (ph, w')) :
    ∃ p, WriteSteps (os "/a.toml") "ab" (.start, exDisk) (p, w') := by
  obtain ⟨p, h1, -⟩ := C73_alone (os "/a.toml") "ab" ph exDisk w' acts h
  exact ⟨p, h1⟩

end Verif.Props
