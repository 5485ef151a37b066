import Verif.Model.Inspect
import Verif.Props.Stateful
import Verif.Props.Layers
/-!
# What layers and configurations tell about themselves (C89)
-/
namespace Verif.Props
open Spec
variable {σ : Type}

theorem trimmed_trimStr (s : String) : Trimmed s (trimStr s) := (trimStr_iff s _).1 rfl

theorem trimStr_idem (s : String) : trimStr (trimStr s) = trimStr s := by
  have h := trimmed_trimStr s
  rw [trimStr_iff]
  exact ⟨⟨[], [], by simp, by simp, by simp⟩, h.2.1, h.2.2⟩

/-- **C89**, environment layers: `get_prefix` is the given prefix without the blanks around it, `Display` shows it, and a layer made
from it is the same layer. -/
theorem C89_environment (given : String) :
    Trimmed given (EnvironmentConfigLayer.new given).getPrefix ∧
    (EnvironmentConfigLayer.new given).display =
      "EnvironmentConfigLayer[" ++ (EnvironmentConfigLayer.new given).getPrefix ++ "]" ∧
    (EnvironmentConfigLayer.new given).boxed = Layer.newEnvironment given ∧
    EnvironmentConfigLayer.new (EnvironmentConfigLayer.new given).getPrefix = EnvironmentConfigLayer.new given := by
  refine ⟨trimmed_trimStr given, ?_, ?_, ?_⟩
  · unfold EnvironmentConfigLayer.display EnvironmentConfigLayer.getPrefix; rfl
  · unfold EnvironmentConfigLayer.boxed EnvironmentConfigLayer.new Layer.newEnvironment; rfl
  · unfold EnvironmentConfigLayer.getPrefix EnvironmentConfigLayer.new
    rw [trimStr_idem]

theorem lands_self {P : String} (hP : Trimmed P P) (hne : P ≠ "") : Lands P (os P, os "x") "" :=
  ⟨P, P, rfl, hP, by
    simp only [String.toList_empty, List.prefix_nil]
    intro h; apply hne; rw [← String.ofList_toList (s := P), h], 1, Nat.le_refl _, by simp [times]⟩

/-- A layer with prefix `Q` that sees a variable `P` as its empty key: `P` is `Q` several times. -/
theorem times_of_reads {p q P Q : String} (hp : Trimmed p P) (hq : Trimmed q Q) (hneP : P ≠ "") (w : World)
    (hw : w.env = [(os P, os "x")])
    (h : (Layer.newEnvironment p).readValue w = (Layer.newEnvironment q).readValue w) :
    Q ≠ "" ∧ ∃ n, 1 ≤ n ∧ P.toList = times n Q.toList := by
  have hPP : Trimmed P P := ⟨⟨[], [], by simp, by simp, by simp⟩, hp.2.1, hp.2.2⟩
  obtain ⟨v, h1, -, -, h4, -⟩ := C54_reads w p P hp hneP
  have hv := (h4 "" [] (os P, os "x") [] "x" hw (lands_self hPP hneP) rfl (by simp)).2
  rw [h1] at h
  have hneQ : Q ≠ "" := by
    rintro rfl
    rw [C55_blank w q] at h
    · cases h
    · obtain ⟨⟨l, r, e, hl, hr⟩, -, -⟩ := hq
      intro c hc
      rw [e] at hc
      simp at hc
      rcases hc with hc | hc
      · exact hl c hc
      · exact hr c hc
  refine ⟨hneQ, ?_⟩
  obtain ⟨v', g1, -, -, -, g5⟩ := C54_reads w q Q hq hneQ
  rw [g1] at h
  cases h
  rcases C54_cases w Q "" with hno | ⟨before, var, after, s, e, hl, -, -⟩
  · rw [g5 "" hno] at hv; cases hv
  · have : var = (os P, os "x") := by
      have : var ∈ w.env := by rw [e]; simp
      rw [hw] at this; simpa using this
    subst this
    obtain ⟨name, t, e1, e2, -, n, hn, e3⟩ := hl
    have e1 : P = name := by
      have := congrArg osToStr e1
      simpa [osToStr_os] using this
    subst e1
    have : t = P := by
      rw [← (trimStr_iff _ _).2 e2, (trimStr_iff _ _).2 hPP]
    subst this
    exact ⟨n, hn, by simpa using e3⟩

theorem length_times (n : Nat) (P : List Char) : (times n P).length = n * P.length := by
  induction n with
  | zero => simp [times]
  | succ n ih => rw [times_succ, List.length_append, ih]; rw [Nat.succ_mul]; omega

/-- **C89**, environment layers: the prefix shown is all there is to the layer: two layers read alike in every world exactly if they
show the same prefix. -/
theorem C89_environment_exact (p q : String) :
    (∀ w, (EnvironmentConfigLayer.new p).boxed.readValue w = (EnvironmentConfigLayer.new q).boxed.readValue w) ↔
      (EnvironmentConfigLayer.new p).getPrefix = (EnvironmentConfigLayer.new q).getPrefix := by
  constructor
  · intro h
    show trimStr p = trimStr q
    have hp := (trimStr_iff p _).1 rfl
    have hq := (trimStr_iff q _).1 rfl
    have h : ∀ w, (Layer.newEnvironment p).readValue w = (Layer.newEnvironment q).readValue w := h
    generalize hP : trimStr p = P at *
    generalize hQ : trimStr q = Q at *
    let wd : String → World := fun s =>
      { locate := fun _ => 0, disk := fun _ => .absent none, room := fun _ => none, env := [(os s, os "x")],
        baseDirs := none, cwd := none }
    by_cases hneP : P = ""
    · by_cases hneQ : Q = ""
      · rw [hneP, hneQ]
      · exact absurd hneP (times_of_reads hq hp hneQ (wd Q) rfl (h _).symm).1
    · obtain ⟨hneQ, n, hn, e⟩ := times_of_reads hp hq hneP (wd P) rfl (h _)
      obtain ⟨-, m, hm, e'⟩ := times_of_reads hq hp hneQ (wd Q) rfl (h _).symm
      have l1 := congrArg List.length e
      have l2 := congrArg List.length e'
      rw [length_times] at l1 l2
      have hQ0 : Q.toList.length ≠ 0 := by
        intro h0
        apply hneQ
        rw [← String.ofList_toList (s := Q), List.length_eq_zero_iff.1 h0]
      have le1 : Q.toList.length ≤ P.toList.length := by rw [l1]; exact Nat.le_mul_of_pos_left _ hn
      have le2 : P.toList.length ≤ Q.toList.length := by rw [l2]; exact Nat.le_mul_of_pos_left _ hm
      have hn1 : n = 1 := by
        have : n * Q.toList.length = 1 * Q.toList.length := by omega
        exact Nat.eq_of_mul_eq_mul_right (Nat.pos_of_ne_zero hQ0) this
      rw [hn1] at e
      simp [times] at e
      exact String.toList_inj.1 e
  · intro h w
    have h : trimStr p = trimStr q := h
    show (Layer.environment (trimStr p)).readValue w = (Layer.environment (trimStr q)).readValue w
    rw [h]

/-- **C89**, file layers: `get_path` is the given path, whatever happens; `exists` and `has_value` tell in every world whether there is
something at it; without, `read_value` is the empty map and no error. -/
theorem C89_file (h : FileHandler) (given : OsStr) (w : World) :
    (FileConfigLayer.new given : FileConfigLayer h).getPath = given ∧
    (FileConfigLayer.new given : FileConfigLayer h).exists' w = w.pathExists given ∧
    (FileConfigLayer.new given : FileConfigLayer h).boxed.hasValue w = (FileConfigLayer.new given : FileConfigLayer h).exists' w ∧
    (FileConfigLayer.new given : FileConfigLayer h).boxed = Layer.newFile h given ∧
    ((FileConfigLayer.new given : FileConfigLayer h).exists' w = false →
      (FileConfigLayer.new given : FileConfigLayer h).boxed.readValue w = .ok Value.newMap) :=
  ⟨rfl, rfl, rfl, rfl, fun hm => C56_missing h w given hm⟩

/-- **C89**, file layers: after a write through the layer that succeeded, `exists` and `has_value` say so. -/
theorem C89_file_written (c : Codec) (given : OsStr) (w w' : World) (v : Value)
    (hw : (FileConfigLayer.new given : FileConfigLayer (textHandler c)).boxed.writeValue w v = (.ok (), w')) :
    (FileConfigLayer.new given : FileConfigLayer (textHandler c)).exists' w' = true := by
  show w'.pathExists given = true
  have hw : (textHandler c).write w given v = (.ok (), w') := hw
  simp only [textHandler] at hw
  cases hp : c.print v.toData with
  | error m => rw [hp] at hw; cases hw
  | ok content =>
    rw [hp] at hw
    simp only [] at hw
    rcases hf : w.fsWrite given content with ⟨r, w1⟩
    rw [hf] at hw
    cases r with
    | error e => cases hw
    | ok u =>
      cases hw
      unfold World.fsWrite at hf
      cases ho : w.openTrunc given with
      | error e => rw [ho] at hf; cases hf
      | ok w2 =>
        have key : ∃ r, w2 = w.put (w.locate given) (.file [] r none) := by
          unfold World.openTrunc at ho
          split at ho <;> first | cases ho; exact ⟨_, rfl⟩ | cases ho
        obtain ⟨r, rfl⟩ := key
        rw [ho] at hf
        have fin : ∀ bs, ((w.put (w.locate given) (.file [] r none)).appendBytes (w.locate given) bs).pathExists given = true := by
          intro bs
          simp [World.pathExists, World.appendBytes, World.put]
        simp only [] at hf
        split at hf
        · split at hf
          · cases hf
          · cases hf; exact fin _
        · cases hf; exact fin _

/-! ## Debug of a configuration -/

theorem debugLoop_eq (kind : DynLayer σ → String) (order : List (String × DynLayer σ)) (s : σ)
    (hpure : ∀ e ∈ order, e.2.getName s = (kind e.2, s)) : ∀ acc,
    DynConfig.debugLoop acc order s = (acc ++ order.map fun e => (e.1, kind e.2), s) := by
  induction order with
  | nil => intro acc; simp [DynConfig.debugLoop]
  | cons e order ih =>
    intro acc
    obtain ⟨n, l⟩ := e
    have h := hpure (n, l) (by simp)
    simp only [] at h
    rw [DynConfig.debugLoop, h, ih (fun e he => hpure e (by simp [he]))]
    simp

/-- **C89**, `{:?}` of a configuration: whatever the iteration order of the HashMap, it lists each registered layer exactly once, with the
name it was registered under and the kind its `get_name` tells (for layers whose `get_name` is a mere name, as all of the crate's are). -/
theorem C89_debug (es : List (String × DynLayer σ)) (kind : DynLayer σ → String) (s : σ)
    (hpure : ∀ e ∈ firsts es, e.2.getName s = (kind e.2, s))
    (order : List (String × DynLayer σ)) (ho : order.Perm (pushAll es).layers) :
    (DynConfig.debugPairs order s).1.Perm ((firsts es).map fun e => (e.1, kind e.2)) ∧
    (DynConfig.debugPairs order s).2 = s := by
  rw [(dynIs_pushAll es).1] at ho
  have hp : ∀ e ∈ order, e.2.getName s = (kind e.2, s) := fun e he => hpure e (ho.mem_iff.1 he)
  unfold DynConfig.debugPairs
  rw [debugLoop_eq kind order s hp []]
  exact ⟨by simpa using ho.map _, rfl⟩

/-- **C89**, for registrations of the crate's own layers the kinds are `Memory`, `Environment` and `File`, each as registered, and looking changes
nothing. -/
theorem C89_debug_builtin (b : Build) (fm : Formats) (calls : List RegCall) (w : World) (order : List (String × DynLayer World))
    (ho : order.Perm (pushAll ((offers b fm calls).map fun e => (e.1, e.2.toDyn))).layers) :
    (DynConfig.debugPairs order w).1.Perm ((firsts (offers b fm calls)).map fun e => (e.1, e.2.getName)) ∧
    (DynConfig.debugPairs order w).2 = w := by
  have hf : firsts ((offers b fm calls).map fun e => (e.1, e.2.toDyn)) =
      (firsts (offers b fm calls)).map fun e => (e.1, e.2.toDyn) := firsts_map_snd (fun _ (l : Layer) => l.toDyn) _
  have hk : ∀ l : Layer, (l.toDyn.getName w).1 = l.getName := fun _ => rfl
  have := C89_debug ((offers b fm calls).map fun e => (e.1, e.2.toDyn)) (fun l => (l.getName w).1) w
    (by rw [hf]; intro e he
        obtain ⟨a, -, rfl⟩ := List.mem_map.1 he
        rfl) order ho
  rw [hf, List.map_map] at this
  exact this

/-! ### Examples -/

example : (EnvironmentConfigLayer.new " APP_ ").display = "EnvironmentConfigLayer[APP_]" := by decide
example : (EnvironmentConfigLayer.new " APP_ ").getPrefix = (EnvironmentConfigLayer.new "APP_\n").getPrefix := by decide
example : (firsts (offers exB1 exFormats exCalls)).map (fun e => (e.1, e.2.getName)) =
    [("d", "Memory"), ("f", "File"), ("g", "File"), ("e", "Environment")] := by decide
/-- The hypothesis of `C89_debug`: the reversed list is an iteration order too. -/
example : ((pushAll exFlakies).layers.reverse).Perm (pushAll exFlakies).layers := List.reverse_perm _
example : ∀ e ∈ firsts exFlakies, e.2.getName 7 = ((fun _ => "Flaky") e.2, 7) := by
  intro e he
  simp [exFlakies, firsts] at he
  rcases he with rfl | rfl | rfl <;> rfl
example : ∃ w', (FileConfigLayer.new (os "/z.toml") : FileConfigLayer (textHandler exCodec)).boxed.writeValue exDisk
    (.map [("text", .string "x")]) = (.ok (), w') := ⟨_, rfl⟩

/-- A file that does not exist: an empty map; once something was written, it exists. -/
example : (FileConfigLayer.new (os "/z.toml") : FileConfigLayer (textHandler exCodec)).boxed.readValue exDisk = .ok Value.newMap :=
  (C89_file (textHandler exCodec) (os "/z.toml") exDisk).2.2.2.2 rfl
example : ∃ w', (FileConfigLayer.new (os "/z.toml") : FileConfigLayer (textHandler exCodec)).exists' exDisk = false ∧
    (FileConfigLayer.new (os "/z.toml") : FileConfigLayer (textHandler exCodec)).exists' w' = true :=
  ⟨_, rfl, C89_file_written exCodec (os "/z.toml") exDisk _ (.map [("text", .string "x")]) rfl⟩
example : (DynConfig.debugPairs ((pushAll ((offers exB1 exFormats exCalls).map fun e => (e.1, e.2.toDyn))).layers.reverse) exDisk).1.Perm
    [("d", "Memory"), ("f", "File"), ("g", "File"), ("e", "Environment")] :=
  (C89_debug_builtin exB1 exFormats exCalls exDisk _ (List.reverse_perm _)).1

end Verif.Props
