import Verif.Custom.Link
/-! C69: the section `dylink.0`. -/
namespace Verif.Custom
open Verif.Reader Verif.Leb Verif.Items Verif.Framing

/-! ### Specification -/

inductive IsExportInfo : Grammar (List UInt8 × BitVec 32)
  | mk {e b1 b2} : Name e.1 b1 → U32 e.2 b2 → IsExportInfo e (b1 ++ b2)

inductive IsImportInfo : Grammar (List UInt8 × List UInt8 × BitVec 32)
  | mk {e b1 b2 b3} : Name e.1 b1 → Name e.2.1 b2 → U32 e.2.2 b3 → IsImportInfo e (b1 ++ b2 ++ b3)

/-- The contents of the subsections of DynamicLinking.md. -/
inductive IsDylink : UInt8 → Grammar Dylink
  | memInfo {a b c d b1 b2 b3 b4} : U32 a b1 → U32 b b2 → U32 c b3 → U32 d b4 →
      IsDylink 1 (.memInfo a b c d) (b1 ++ b2 ++ b3 ++ b4)
  | needed {l b} : Vec Name l b → IsDylink 2 (.needed l) b
  | exportInfo {l b} : Vec IsExportInfo l b → IsDylink 3 (.exportInfo l) b
  | importInfo {l b} : Vec IsImportInfo l b → IsDylink 4 (.importInfo l) b
  | runtimePath {l b} : Vec Name l b → IsDylink 5 (.runtimePath l) b
  | unknown {id b} : id ∉ [1, 2, 3, 4, 5] → IsDylink id (.unknown id b (0, 0)) b

/-- The contents, then anything. -/
def Loose : UInt8 → Grammar Dylink := fun id x b => ∃ p t, b = p ++ t ∧ IsDylink id x p ∧
  (id ∉ [1, 2, 3, 4, 5] → t = [])

/-- Without the range of unknown subsections. -/
def Dylink.noRange : Dylink → Dylink
  | .unknown ty data _ => .unknown ty data (0, 0)
  | d => d

/-- All the subsections. -/
def dylinkRead (r : Reader) (l : List Dylink) : Prop :=
  ∃ ls, subs dylinkFromReader r = .ok ls ∧ ls.map Dylink.noRange = l

/-- The subsections that wast can write. -/
def Dylink.Fits : Dylink → Prop
  | .memInfo .. => True
  | .needed l | .runtimePath l => l.length < 2 ^ 32 ∧ ∀ s ∈ l, Str s
  | .exportInfo l => l.length < 2 ^ 32 ∧ ∀ e ∈ l, Str e.1
  | .importInfo l => l.length < 2 ^ 32 ∧ ∀ e ∈ l, Str e.1 ∧ Str e.2.1
  | .unknown .. => False

/-- The property: what can be read is exactly what the grammar allows. -/
def DylinkExact : Prop := ∀ r l, dylinkRead r l ↔ Seq (InSub IsDylink) l r.rest

/-! ### Lemmas -/

theorem exact_exportInfo : Exact readExportInfo IsExportInfo := by
  unfold readExportInfo
  refine (exact_name.bind fun _ => Exact.u32.bind fun _ => .pure _).congr fun d b => ?_
  constructor
  · rintro ⟨x, b1, b2, rfl, h1, y, b3, b4, rfl, h2, rfl, rfl⟩
    simpa using IsExportInfo.mk (e := (x, y)) h1 h2
  · rintro ⟨h1, h2⟩
    rename_i b1 b2
    exact ⟨_, b1, b2, rfl, h1, _, b2, [], by simp, h2, rfl, rfl⟩

theorem exact_importInfo : Exact readImportInfo IsImportInfo := by
  unfold readImportInfo
  refine (exact_name.bind fun _ => exact_name.bind fun _ => Exact.u32.bind fun _ => .pure _).congr
    fun d b => ?_
  constructor
  · rintro ⟨x, b1, b2, rfl, h1, y, b3, b4, rfl, h2, z, b5, b6, rfl, h3, rfl, rfl⟩
    simpa using IsImportInfo.mk (e := (x, y, z)) h1 h2 h3
  · rintro ⟨h1, h2, h3⟩
    rename_i b1 b2 b3
    exact ⟨_, b1, b2 ++ b3, by simp, h1, _, b2, b3, rfl, h2, _, b3, [], by simp, h3, rfl, rfl⟩

theorem exact_memInfo : Exact readMemInfo fun x b => IsDylink 1 x b := by
  unfold readMemInfo
  refine (Exact.u32.bind fun _ => Exact.u32.bind fun _ => Exact.u32.bind fun _ =>
    Exact.u32.bind fun _ => .pure _).congr fun d b => ?_
  constructor
  · rintro ⟨x, b1, b2, rfl, h1, y, b3, b4, rfl, h2, z, b5, b6, rfl, h3, w, b7, b8, rfl, h4, rfl, rfl⟩
    simpa using IsDylink.memInfo h1 h2 h3 h4
  · intro h
    cases h with
    | @memInfo x y z w b1 b2 b3 b4 h1 h2 h3 h4 =>
      exact ⟨x, b1, b2 ++ b3 ++ b4, by simp, h1, y, b2, b3 ++ b4, by simp, h2, z, b3, b4, rfl, h3,
        w, b4, [], by simp, h4, rfl, rfl⟩
    | unknown h => simp at h

theorem whole_exact {f : R α} {G : Grammar α} (h : Exact f G) (r : Reader) (a : α) :
    whole f r = .ok a ↔ ∃ p t, r.rest = p ++ t ∧ G a p := by
  rw [whole_ok]
  constructor
  · rintro ⟨r', h1⟩
    obtain ⟨b, t, e, g, -⟩ := (h _ _ _).1 h1
    exact ⟨b, t, e, g⟩
  · rintro ⟨p, t, e, g⟩
    exact ⟨_, (h _ _ _).2 ⟨p, t, e, g, rfl⟩⟩

theorem loose_iff (id : UInt8) (rd : Reader) (x : Dylink) :
    (∃ a, dylinkFromReader id rd = .ok a ∧ a.noRange = x) ↔ Loose id x rd.rest := by
  unfold dylinkFromReader
  constructor
  · rintro ⟨a, h1, h2⟩
    split at h1
    · next h =>
      subst h
      obtain ⟨p, t, e, g⟩ := (whole_exact exact_memInfo _ _).1 h1
      have : a.noRange = a := by cases g <;> first | rfl | simp at *
      rw [← h2, this]
      exact ⟨p, t, e, g, by simp⟩
    · split at h1
      · next h =>
        subst h
        obtain ⟨l, hs, rfl⟩ := map_ok.1 h1
        obtain ⟨p, t, e, g⟩ := (whole_exact (exact_vec exact_name) _ _).1 hs
        exact ⟨p, t, e, h2 ▸ .needed g, by simp⟩
      · split at h1
        · next h =>
          subst h
          obtain ⟨l, hs, rfl⟩ := map_ok.1 h1
          obtain ⟨p, t, e, g⟩ := (whole_exact (exact_vec exact_exportInfo) _ _).1 hs
          exact ⟨p, t, e, h2 ▸ .exportInfo g, by simp⟩
        · split at h1
          · next h =>
            subst h
            obtain ⟨l, hs, rfl⟩ := map_ok.1 h1
            obtain ⟨p, t, e, g⟩ := (whole_exact (exact_vec exact_importInfo) _ _).1 hs
            exact ⟨p, t, e, h2 ▸ .importInfo g, by simp⟩
          · split at h1
            · next h =>
              subst h
              obtain ⟨l, hs, rfl⟩ := map_ok.1 h1
              obtain ⟨p, t, e, g⟩ := (whole_exact (exact_vec exact_name) _ _).1 hs
              exact ⟨p, t, e, h2 ▸ .runtimePath g, by simp⟩
            · cases h1
              exact ⟨rd.rest, [], by simp, h2 ▸ .unknown (by simp; exact ⟨‹_›, ‹_›, ‹_›, ‹_›, ‹_›⟩),
                fun _ => rfl⟩
  · rintro ⟨p, t, e, h, ht⟩
    cases h with
    | memInfo h1 h2 h3 h4 =>
      exact ⟨_, (if_pos rfl).trans ((whole_exact exact_memInfo _ _).2
        ⟨_, t, e, .memInfo h1 h2 h3 h4⟩), rfl⟩
    | needed h =>
      exact ⟨_, by rw [if_neg (by decide), if_pos rfl,
        (whole_exact (exact_vec exact_name) _ _).2 ⟨p, t, e, h⟩]; rfl, rfl⟩
    | exportInfo h =>
      exact ⟨_, by rw [if_neg (by decide), if_neg (by decide), if_pos rfl,
        (whole_exact (exact_vec exact_exportInfo) _ _).2 ⟨p, t, e, h⟩]; rfl, rfl⟩
    | importInfo h =>
      exact ⟨_, by rw [if_neg (by decide), if_neg (by decide), if_neg (by decide), if_pos rfl,
        (whole_exact (exact_vec exact_importInfo) _ _).2 ⟨p, t, e, h⟩]; rfl, rfl⟩
    | runtimePath h =>
      exact ⟨_, by rw [if_neg (by decide), if_neg (by decide), if_neg (by decide), if_neg (by decide),
        if_pos rfl, (whole_exact (exact_vec exact_name) _ _).2 ⟨p, t, e, h⟩]; rfl, rfl⟩
    | unknown h =>
      cases ht h
      rw [List.append_nil] at e
      simp only [List.mem_cons, List.not_mem_nil, or_false, not_or] at h
      rw [if_neg h.1, if_neg h.2.1, if_neg h.2.2.1, if_neg h.2.2.2.1, if_neg h.2.2.2.2, e]
      exact ⟨_, rfl, rfl⟩

theorem forall₂_map {f : α → β} : ∀ {xs : List α} {ys : List β},
    List.Forall₂ (fun x y => f x = y) xs ys ↔ xs.map f = ys
  | [], ys => by
    constructor
    · intro h; cases h; rfl
    · rintro rfl; exact .nil
  | x :: xs, ys => by
    constructor
    · intro h
      cases h with
      | cons h1 h2 => rw [List.map_cons, h1, forall₂_map.1 h2]
    · rintro rfl
      exact .cons rfl (forall₂_map.2 rfl)

theorem writes_dylink {d : Dylink} (h : d.Fits) : Writes d.encode (IsDylink d.id d) := by
  cases d with
  | memInfo a b c d => exact ⟨_, rfl, .memInfo (u32_enc _) (u32_enc _) (u32_enc _) (u32_enc _)⟩
  | needed l =>
    obtain ⟨b, h1, h2⟩ := writes_vec h.1 fun s hs => writes_name (h.2 s hs)
    exact ⟨b, h1, .needed h2⟩
  | exportInfo l =>
    obtain ⟨b, h1, h2⟩ := writes_vec (enc := encodeExportInfo) (G := IsExportInfo) h.1 fun e he => by
      obtain ⟨b, h1, h2⟩ := writes_name (h.2 e he)
      exact ⟨_, by unfold encodeExportInfo; rw [h1]; rfl, .mk h2 (u32_enc _)⟩
    exact ⟨b, h1, .exportInfo h2⟩
  | importInfo l =>
    obtain ⟨b, h1, h2⟩ := writes_vec (enc := encodeImportInfo) (G := IsImportInfo) h.1 fun e he => by
      obtain ⟨b, h1, h2⟩ := writes_name (h.2 e he).1
      obtain ⟨c, h3, h4⟩ := writes_name (h.2 e he).2
      exact ⟨_, by unfold encodeImportInfo; rw [h1, h3]; rfl, .mk h2 h4 (u32_enc _)⟩
    exact ⟨b, h1, .importInfo h2⟩
  | runtimePath l =>
    obtain ⟨b, h1, h2⟩ := writes_vec h.1 fun s hs => writes_name (h.2 s hs)
    exact ⟨b, h1, .runtimePath h2⟩
  | unknown => exact h.elim

theorem encoded_dylink {d : Dylink} {b : List UInt8} (h : d.Fits) (he : encodeDylink d = some b) :
    InSub IsDylink d b := by
  obtain ⟨p, h1, h2⟩ := writes_dylink h
  have he : (d.encode).bind (fun tmp => (encodeSlice tmp).bind (fun x => some ([d.id] ++ x))) =
    some b := he
  rw [h1, Option.bind_some] at he
  obtain ⟨c, h3, h4⟩ := Option.bind_eq_some_iff.1
    (he : (encodeSlice p).bind (fun x => some ([d.id] ++ x)) = some b)
  cases h4
  obtain ⟨h5, rfl⟩ := Names.encodeSlice_some h3
  have hid : d.id < 128 := by
    cases d with
    | unknown => exact h.elim
    | _ => simp [Dylink.id]
  simpa using InSub.mk hid (leb_enc h5) h2

theorem encoded_all : ∀ {l : List Dylink} {b : List UInt8}, (∀ d ∈ l, d.Fits) →
    Enc.encodeAll encodeDylink l = some b → Seq (InSub IsDylink) l b
  | [], b, _, h => by cases h; exact ⟨[], rfl, .nil⟩
  | d :: l, b, hf, h => by
    unfold Enc.encodeAll at h
    obtain ⟨b1, h1, h⟩ := Option.bind_eq_some_iff.1 h
    obtain ⟨b2, h2, h⟩ := Option.bind_eq_some_iff.1 h
    cases h
    obtain ⟨bs, rfl, h3⟩ := encoded_all (fun e he => hf e (List.mem_cons_of_mem _ he)) h2
    exact ⟨b1 :: bs, rfl, .cons (encoded_dylink (hf d (List.mem_cons_self ..)) h1) h3⟩

theorem loose_of {l : List Dylink} {b : List UInt8} (h : Seq (InSub IsDylink) l b) :
    Seq (InSub Loose) l b := by
  obtain ⟨bs, rfl, h⟩ := h
  refine ⟨bs, rfl, h.imp fun x b h => ?_⟩
  cases h with
  | @mk id _ n p h1 h2 h3 => exact .mk h1 h2 ⟨p, [], by simp, h3, fun _ => rfl⟩

/-! ### Properties -/

/-- What can be read is what the grammar allows, with any bytes at the end of the contents of the
known subsections. Missing for `DylinkExact`: nothing checks that these are empty. -/
theorem dylink_read_partial (r : Reader) (l : List Dylink) :
    dylinkRead r l ↔ Seq (InSub Loose) l r.rest := by
  rw [← subs_iff loose_iff r l]
  unfold dylinkRead
  simp only [forall₂_map]

/-- Everything that the grammar allows can be read. -/
theorem dylink_complete {r : Reader} {l : List Dylink} (h : Seq (InSub IsDylink) l r.rest) :
    dylinkRead r l := (dylink_read_partial r l).2 (loose_of h)

/-- A list of needed libraries with a byte at its end. -/
theorem dylink_exact_fails : ¬ DylinkExact := by
  intro h
  have h1 := (h (Reader.new [2, 2, 0, 7] 0) [.needed []]).1
    ⟨[.needed []], by decide +kernel, rfl⟩
  obtain ⟨bs, e, h2⟩ := h1
  cases h2 with
  | @cons _ b _ bs' hb ht =>
    cases ht
    have e : b = [2, 2, 0, 7] := by simpa [Reader.rest, Reader.new] using e.symm
    cases hb with
    | @mk id _ n p h3 h4 h5 =>
      cases h5 with
      | needed h5 =>
        have e2 : n ++ p = [2, 0, 7] := by simpa using e
        have h6 := (Exact.u32 (Reader.new [2, 0, 7] 0) (BitVec.ofNat 32 p.length)
          ((Reader.new [2, 0, 7] 0).advance n.length)).2
          ⟨n, p, e2.symm, by
            have : p.length ≤ 3 := by have := congrArg List.length e2; simp at this; omega
            show ULeb 32 n (BitVec.ofNat 32 p.length).toNat
            rw [BitVec.toNat_ofNat, Nat.mod_eq_of_lt (by omega)]; exact h4, rfl⟩
        have h7 : readVarU32 (Reader.new [2, 0, 7] 0) = .ok (2, ⟨[2, 0, 7], 1, 0⟩) := by
          decide +kernel
        rw [h7] at h6
        have h8 : n.length = 1 := by
          have := congrArg (fun x => (Except.toOption x).map fun y => y.2.position) h6
          simpa [Except.toOption, Reader.advance, Reader.new] using this.symm
        match n, h8 with
        | [x], _ =>
          cases e2
          have h9 := (exact_vec exact_name (Reader.new [0, 7] 0) []
            ((Reader.new [0, 7] 0).advance 2)).2 ⟨[0, 7], [], rfl, h5, rfl⟩
          have h10 : readVec readUnlimitedString (Reader.new [0, 7] 0) =
            .ok ([], ⟨[0, 7], 1, 0⟩) := by decide +kernel
          rw [h10] at h9
          cases h9

/-- What wast writes is read back. -/
theorem dylink_written {l : List Dylink} {b : List UInt8} (h : ∀ d ∈ l, d.Fits)
    (he : Enc.encodeAll encodeDylink l = some b) (off : Nat) : dylinkRead (Reader.new b off) l :=
  dylink_complete (encoded_all h he)

/-! ### Examples -/

def exDylink : List Dylink :=
  [.memInfo 300 2 1 0, .needed ["libc.so".toUTF8.toList], .exportInfo [("f".toUTF8.toList, 1)],
   .importInfo [("env".toUTF8.toList, "g".toUTF8.toList, 1)], .runtimePath []]

example : Enc.encodeAll encodeDylink exDylink = some [1, 5, 0xAC, 2, 2, 1, 0,
    2, 9, 1, 7, 0x6C, 0x69, 0x62, 0x63, 0x2E, 0x73, 0x6F, 3, 4, 1, 1, 0x66, 1,
    4, 8, 1, 3, 0x65, 0x6E, 0x76, 1, 0x67, 1, 5, 1, 0] := by decide +kernel

example : ∀ d ∈ exDylink, d.Fits := by
  intro d hd
  simp only [exDylink, List.mem_cons, List.not_mem_nil, or_false] at hd
  rcases hd with rfl | rfl | rfl | rfl | rfl
  · trivial
  · exact ⟨by decide, by simp; exact ⟨by decide +kernel, by decide +kernel⟩⟩
  · exact ⟨by decide, by simp; exact ⟨by decide +kernel, by decide +kernel⟩⟩
  · exact ⟨by decide, by simp; exact ⟨⟨by decide +kernel, by decide +kernel⟩, by decide +kernel, by decide +kernel⟩⟩
  · exact ⟨by decide, by simp⟩

end Verif.Custom
