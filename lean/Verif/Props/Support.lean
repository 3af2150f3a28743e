import Verif.Model.Support

/-!
C49: patches, and C50: compressed flow files.
-/

namespace Flow
open Sup

/-! ### C49 -/

/-- **C49** (mapper given) If the patch has a mapper for the task, it is used instead of that of the definition, and
otherwise that of the definition; of several entries for the task the last one counts. What is missing: the mappings
of a patch never become a mapper, see `C49_negation`. -/
theorem C49_chosen_partial (p : Patch) (hp : p.taskPatchMap = []) (t : TaskId) (defn : Option Mapper) :
    chooseInput (some p.init) t defn =
      (((p.taskPatches.filter (fun x => x.id = t)).getLast?).bind (·.inputMapper)).or defn ∧
    chooseOutput (some p.init) t defn =
      (((p.taskPatches.filter (fun x => x.id = t)).getLast?).bind (·.outputMapper)).or defn := by
  have hmap : p.init.taskPatchMap.get? t = (p.taskPatches.filter (fun x => x.id = t)).getLast? := by
    have key : ∀ (l : List TaskPatch) (m : AMap TaskId TaskPatch),
        (l.foldl (fun m x => m.set x.id x) m).get? t = ((l.filter (fun x => x.id = t)).getLast?).or (m.get? t) := by
      intro l
      induction l with
      | nil => intro m; simp
      | cons x l ih =>
        intro m
        rw [List.foldl_cons, ih, AMap.get?_set]
        by_cases hx : x.id = t
        · rw [List.filter_cons_of_pos (by simpa using hx), List.getLast?_cons, if_pos hx]
          cases (List.filter (fun x => decide (x.id = t)) l).getLast? <;> simp
        · rw [List.filter_cons_of_neg (by simpa using hx), if_neg hx]
    unfold Patch.init
    split
    · rw [key]; simp
    · rename_i h
      have : p.taskPatches = [] := List.length_eq_zero_iff.1 (by omega)
      rw [this, hp]; simp
  constructor
  · unfold chooseInput Patch.getInputMapper
    dsimp only
    rw [hmap]
    cases (((p.taskPatches.filter (fun x => decide (x.id = t))).getLast?).bind (·.inputMapper)) <;> simp
  · unfold chooseOutput Patch.getOutputMapper
    dsimp only
    rw [hmap]
    cases (((p.taskPatches.filter (fun x => decide (x.id = t))).getLast?).bind (·.outputMapper)) <;> simp

/-- The hypothesis is met, and the mapper used, by a patch with a mapper. -/
example : let p : Patch := { taskPatches := [{ id := "A" }, { id := "B", inputMapper := some (fun _ => [("x", .int 1)]) }] }
    p.taskPatchMap = [] ∧ (chooseInput (some p.init) "B" none).map (fun m => m []) = some [("x", .int 1)] := ⟨rfl, rfl⟩

/-- **C49** is false: whatever mappings a patch that comes from outside contains, the mappers of the definition are
used. -/
theorem C49_negation (l : List (TaskId × AMap String Val × AMap String Val)) (t : TaskId) (defn : Option Mapper) :
    chooseInput (some (Patch.ofTasks l).init) t defn = defn ∧ chooseOutput (some (Patch.ofTasks l).init) t defn = defn := by
  obtain ⟨h1, h2⟩ := C49_chosen_partial (Patch.ofTasks l) rfl t defn
  have hnone : ∀ x ∈ (Patch.ofTasks l).taskPatches, x.inputMapper = none ∧ x.outputMapper = none := by
    intro x hx
    simp only [Patch.ofTasks, List.mem_map] at hx
    obtain ⟨p, _, rfl⟩ := hx
    exact ⟨rfl, rfl⟩
  have hlast : ∀ x, ((Patch.ofTasks l).taskPatches.filter (fun x => decide (x.id = t))).getLast? = some x →
      x.inputMapper = none ∧ x.outputMapper = none := fun x hx =>
    hnone x (List.mem_filter.1 (List.mem_of_getLast? hx)).1
  rw [h1, h2]
  cases hx : ((Patch.ofTasks l).taskPatches.filter (fun x => decide (x.id = t))).getLast? with
  | none => simp
  | some x => simp [hlast x hx]

/-- In particular the mappings of a patch for the task itself. -/
example : (chooseInput (some (Patch.ofTasks [("A", [("x", .int 2)], [])]).init) "A" (some (fun _ => [("x", .int 1)]))).map
    (fun m => m []) = some [("x", .int 1)] := rfl

/-! ### C50 -/

namespace Spec

/-- The content begins like every gzip file: the magic number `1f 8b`, and `08` for the only compression method
(RFC 1952). -/
def IsGzip (bytes : List UInt8) : Prop := ∃ r, bytes = 0x1f :: 0x8b :: 0x08 :: r

/-- A decompressor accepts gzip files only. -/
def Decompressor (gunzip : List UInt8 → Option (List UInt8)) : Prop := ∀ b r, gunzip b = some r → IsGzip b

end Spec

open Spec

/-- **C50** (ordinary content) A nonempty file that does not begin with the byte `1f` is parsed as it is. -/
theorem C50_plain_partial (gunzip : List UInt8 → Option (List UInt8)) (b : UInt8) (r : List UInt8) (h : b ≠ 0x1f) :
    loadFile gunzip (b :: r) = .parse (b :: r) := by
  unfold loadFile
  simp [h]

/-- A JSON document begins with a brace. -/
example : loadFile (fun _ => none) [0x7b, 0x7d] = .parse [0x7b, 0x7d] := rfl

/-- **C50** is false. (1) No gzip file is recognised: its bytes are handed to the parser without decompression.
(2) Content is never decompressed successfully at all. (3) The empty file, and files of one or two bytes the first of
which is `1f`, crash the loading. -/
theorem C50_negation (gunzip : List UInt8 → Option (List UInt8)) (hg : Decompressor gunzip) :
    (∀ b, IsGzip b → loadFile gunzip b = .parse b) ∧
    (∀ b r, loadFile gunzip b = .parse r → r = b) ∧
    (∀ b : List UInt8, b.length < 3 → (∀ x, b.head? = some x → x = 0x1f) → loadFile gunzip b = .crash) := by
  refine ⟨?_, ?_, ?_⟩
  · rintro _ ⟨r, rfl⟩
    rfl
  · intro b r h
    unfold loadFile at h
    cases h0 : b[0]? with
    | none => rw [h0] at h; cases h
    | some b0 =>
      rw [h0] at h
      dsimp only at h
      by_cases hb : b0 = 0x1f
      · rw [if_pos hb] at h
        cases h2 : b[2]? with
        | none => rw [h2] at h; cases h
        | some b2 =>
          rw [h2] at h
          dsimp only at h
          by_cases hc : b2 = 0x8b
          · rw [if_pos hc] at h
            cases h3 : gunzip b with
            | none => rw [h3] at h; cases h
            | some x =>
              obtain ⟨s, hs⟩ := hg b x h3
              rw [hs] at h2
              simp at h2
              rw [hc] at h2
              exact absurd h2 (by decide)
          · rw [if_neg hc] at h; cases h; rfl
      · rw [if_neg hb] at h; cases h; rfl
  · intro b hl hx
    match b, hl, hx with
    | [], _, _ => rfl
    | [x], _, hx => rw [hx x rfl]; rfl
    | [x, y], _, hx => rw [hx x rfl]; rfl

/-- The hypothesis of `C50_negation` is met by a decompressor for stored data, which finds the content after the
header. -/
example : Decompressor (fun b => match b with | 0x1f :: 0x8b :: 0x08 :: r => some r | _ => none) := by
  intro b r h
  dsimp only at h
  split at h
  · exact ⟨_, rfl⟩
  · cases h

end Flow
