import Verif.Custom.Write
/-! C67: the custom sections of core dumps. -/
namespace Verif.Custom
open Verif.Reader Verif.Leb Verif.Items Verif.Framing

/-! ### The readers accept exactly the grammars of the sections

In particular the sections have no bytes after the grammar, and none missing. -/

theorem core_read (r : Reader) (name : List UInt8) :
    readCore r = .ok name ↔ IsModule name r.rest := fills_core r name

theorem modules_read (r : Reader) (l : List (List UInt8)) :
    readModules r = .ok l ↔ Vec IsModule l r.rest :=
  Fills.readPos (fun n => fills_vec (exact_module n)) r l

theorem instances_read (r : Reader) (l : List Instance) :
    readInstances r = .ok l ↔ Vec IsInstance l r.rest := fills_vec exact_instance r l

theorem stack_read (r : Reader) (s : Stack) : readStack r = .ok s ↔ IsStack s r.rest :=
  fills_stack r s

/-! ### What the builders write is read back as it was given to them

No method panics; the sections that are read are the ones that were built. -/

theorem core_written {name : List UInt8} (h : Str name) :
    ∃ d, coreData name = some d ∧ ∀ off, readCore (Reader.new d off) = .ok name := by
  obtain ⟨b, h1, h2⟩ := writes_module h
  exact ⟨b, h1, fun _ => (core_read _ _).2 h2⟩

theorem modules_written {l : List (List UInt8)} (hl : l.length < 2 ^ 32) (h : ∀ s ∈ l, Str s) :
    ∃ b, calls addModule l = some b ∧ ∀ off, readModules (Reader.new (countedData b) off) = .ok l := by
  obtain ⟨b, h1, h2⟩ := calls_vec addModule_eq hl fun s hs => writes_module (h s hs)
  exact ⟨b, h1, fun _ => (modules_read _ _).2 h2⟩

theorem instances_written {l : List Instance} (hl : l.length < 2 ^ 32) (h : ∀ i ∈ l, i.Fits) :
    ∃ b, calls addInstance l = some b ∧
      ∀ off, readInstances (Reader.new (countedData b) off) = .ok l := by
  obtain ⟨b, h1, h2⟩ := calls_vec addInstance_eq hl fun i hi => writes_instance (h i hi)
  exact ⟨b, h1, fun _ => (instances_read _ _).2 h2⟩

theorem stack_written {s : Stack} (hn : Str s.name) (hl : s.frames.length < 2 ^ 32)
    (h : ∀ f ∈ s.frames, f.Fits) :
    ∃ b d, calls addFrame s.frames = some b ∧ stackData s.name b = some d ∧
      ∀ off, readStack (Reader.new d off) = .ok s := by
  obtain ⟨b, h1, h2⟩ := calls_vec addFrame_eq hl fun f hf => writes_frame (h f hf)
  obtain ⟨c, h3, h4⟩ := writes_name hn
  refine ⟨b, 0 :: c ++ (encodeU32 b.numAdded ++ b.bytes), h1, ?_, fun _ => (stack_read _ _).2 (.mk h4 h2)⟩
  unfold stackData
  rw [h3]; simp

/-! ### The sections are known by their names, and when they can be read -/

theorem Known.ofExcept_iff {k : α → Known} {e : Except Err α} {x : Known} (hx : x ≠ .unknown) :
    Known.ofExcept k e = x ↔ ∃ a, e = .ok a ∧ k a = x := by
  cases e with
  | error e => simp [Known.ofExcept, hx.symm]
  | ok a => simp [Known.ofExcept]

theorem known_core (name : String) (r : Reader) (s : List UInt8) :
    asKnown name r = .coreDump s ↔ name = "core" ∧ IsModule s r.rest := by
  rw [← core_read]
  unfold asKnown
  split
  · next h => subst h; rw [Known.ofExcept_iff (by simp)]; simp
  split
  · next h => subst h; simp
  split
  · next h => subst h; rw [Known.ofExcept_iff (by simp)]; simp
  repeat' split
  all_goals first | (rw [Known.ofExcept_iff (by simp)]; simp_all) | simp_all

theorem known_modules (name : String) (r : Reader) (l : List (List UInt8)) :
    asKnown name r = .coreDumpModules l ↔ name = "coremodules" ∧ Vec IsModule l r.rest := by
  rw [← modules_read]
  unfold asKnown
  repeat' split
  all_goals first
    | (next h => subst h; rw [Known.ofExcept_iff (by simp)]; simp)
    | simp_all

theorem known_instances (name : String) (r : Reader) (l : List Instance) :
    asKnown name r = .coreDumpInstances l ↔ name = "coreinstances" ∧ Vec IsInstance l r.rest := by
  rw [← instances_read]
  unfold asKnown
  repeat' split
  all_goals first
    | (next h => subst h; rw [Known.ofExcept_iff (by simp)]; simp)
    | simp_all

theorem known_stack (name : String) (r : Reader) (s : Stack) :
    asKnown name r = .coreDumpStack s ↔ name = "corestack" ∧ IsStack s r.rest := by
  rw [← stack_read]
  unfold asKnown
  repeat' split
  all_goals first
    | (next h => subst h; rw [Known.ofExcept_iff (by simp)]; simp)
    | simp_all

/-! ### What was read can be built again -/

theorem core_again {r : Reader} {name : List UInt8} (h : readCore r = .ok name) : Str name := by
  have h := (core_read _ _).1 h
  generalize r.rest = b at h
  cases h with
  | mk h => exact name_fits h

theorem modules_again {r : Reader} {l : List (List UInt8)} (h : readModules r = .ok l) :
    l.length < 2 ^ 32 ∧ ∀ s ∈ l, Str s := by
  have h := (modules_read _ _).1 h
  refine ⟨vec_length h, fun s hs => ?_⟩
  obtain ⟨c, h⟩ := vec_mem h s hs
  cases h with
  | mk h => exact name_fits h

theorem instances_again {r : Reader} {l : List Instance} (h : readInstances r = .ok l) :
    l.length < 2 ^ 32 ∧ ∀ i ∈ l, i.Fits := by
  have h := (instances_read _ _).1 h
  refine ⟨vec_length h, fun s hs => ?_⟩
  obtain ⟨c, h⟩ := vec_mem h s hs
  cases h with
  | mk _ h1 h2 => exact ⟨vec_length h1, vec_length h2⟩

theorem stack_again {r : Reader} {s : Stack} (h : readStack r = .ok s) :
    Str s.name ∧ s.frames.length < 2 ^ 32 ∧ ∀ f ∈ s.frames, f.Fits := by
  have h := (stack_read _ _).1 h
  generalize r.rest = b at h
  cases h with
  | mk h1 h2 =>
    refine ⟨name_fits h1, vec_length h2, fun f hf => ?_⟩
    obtain ⟨c, h⟩ := vec_mem h2 f hf
    cases h with
    | mk _ _ _ h1 h2 => exact ⟨vec_length h1, vec_length h2⟩

/-! ### Examples -/

/-- A stack with two frames. -/
def exStack : Stack where
  name := "main".toUTF8.toList
  frames := [⟨0, 7, 300, [.i32 (-1), .missing], [.f64 0x3FF0000000000000]⟩, ⟨1, 0, 0, [], []⟩]

example : Str exStack.name ∧ exStack.frames.length < 2 ^ 32 ∧ ∀ f ∈ exStack.frames, f.Fits := by
  refine ⟨⟨by decide +kernel, by decide +kernel⟩, by decide, ?_⟩
  intro f hf
  simp only [exStack, List.mem_cons, List.not_mem_nil, or_false] at hf
  rcases hf with rfl | rfl <;> exact ⟨by decide, by decide⟩

example : ((calls addFrame exStack.frames).bind (stackData exStack.name)) = some
    [0, 4, 0x6D, 0x61, 0x69, 0x6E, 2, 0, 0, 7, 0xAC, 2, 2, 0x7F, 0x7F, 1,
      1, 0x7C, 0, 0, 0, 0, 0, 0, 0xF0, 0x3F, 0, 1, 0, 0, 0, 0] := by decide +kernel

/-- An index that is not in its shortest form is read, a missing start byte is not. -/
example : readInstances (Reader.new [1, 0, 0x82, 0, 1, 3, 0] 0) = .ok [⟨2, [3], []⟩] ∧
    readInstances (Reader.new [1, 1, 2, 1, 3, 0] 0) =
      .error (.msg "invalid start byte for core dump instance" 1) ∧
    readInstances (Reader.new [0, 0] 9) =
      .error (.msg "trailing bytes at end of custom section" 10) := by decide +kernel

end Verif.Custom
