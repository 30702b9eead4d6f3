import Verif.Meta.Lemmas
/-!
# C36: producers metadata

`Has p field name version` is the content of a producers section, `Wf` says that it has no
duplicates; both are in `Spec.lean`.
-/
namespace Verif.Meta.Props
open Verif.Leb Verif.Reader Verif.Parser Verif.Framing Verif.Meta Spec

/-- `[("language", [("C", "")]), ("processed-by", [("clang", "1")])]` -/
def sampleA : Producers :=
  [(language, [([67], [])]), (processedBy, [([99, 108, 97, 110, 103], [49]), ([108, 100], [50])])]

/-- `[("sdk", [("x", "")]), ("processed-by", [("ld", "3"), ("rustc", "4")]), ("language", [])]` -/
def sampleB : Producers :=
  [(sdk, [([120], [])]), (processedBy, [([108, 100], [51]), ([114], [52])]), (language, [])]

instance (p : Producers) : Decidable (Readable p) := by unfold Readable; infer_instance

/-- All producers sections, however obtained, have no duplicates. -/
theorem c36_reach_wf (p : Producers) (h : Reach p) : Wf p := reach_wf h

/-- The API's lookup finds exactly the contents. -/
theorem c36_get (p : Producers) (h : Wf p) (field name version : Str) :
    getVersion p field name = some version ↔ Has p field name version := (has_iff h ..).symm

/-- **C36.** After `merge`, the version of a name is the one of `other` if that has one and
the previous one otherwise. -/
theorem c36_merge (p q : Producers) (hp : Wf p) (hq : Wf q) (field name version : Str) :
    Has (merge p q) field name version ↔
      Has q field name version ∨ (Has p field name version ∧ ∀ v, ¬ Has q field name v) := by
  rw [has_iff (wf_merge hp q), has_iff hp, has_iff hq, getVersion_merge hq]
  constructor
  · intro h
    cases hg : getVersion q field name with
    | some v => rw [hg] at h; exact .inl h
    | none =>
      rw [hg] at h
      refine .inr ⟨h, fun v hv => ?_⟩
      rw [has_iff hq, hg] at hv
      cases hv
  · rintro (h | ⟨h1, h2⟩)
    · rw [h]; rfl
    · cases hg : getVersion q field name with
      | some v => exact absurd ((has_iff hq ..).mpr hg) (h2 v)
      | none => exact h1

/-- `merge` keeps the order: first the old fields, then the new ones that have values, in
their order. -/
theorem c36_merge_fields (p q : Producers) (hq : Wf q) :
    (merge p q).map Prod.fst = p.map Prod.fst ++
      ((q.filter fun e => e.2 ≠ []).map Prod.fst).filter (· ∉ p.map Prod.fst) :=
  keys_merge hq.fields p

/-- The same for the names within a field. -/
theorem c36_merge_names (p q : Producers) (hp : Wf p) (hq : Wf q) (field : Str) :
    namesIn (merge p q) field = namesIn p field ++
      (namesIn q field).filter (· ∉ namesIn p field) := by
  rw [namesIn_eq (wf_merge hp q).fields, namesIn_eq hp.fields, namesIn_eq hq.fields,
    get_merge hq.fields]
  by_cases h : (get q field).getD [] = []
  · simp [h, keys]
  · rw [if_neg h, Option.getD_some, keys_override (nodup_field hq field)]

/-- `add` sets one version and nothing else. -/
theorem c36_add (p : Producers) (hp : Wf p) (f n v : Str) (field name version : Str) :
    Has (add p f n v) field name version ↔
      if field = f ∧ name = n then version = v else Has p field name version := by
  rw [has_iff (wf_add hp ..), has_iff hp, add_eq]
  unfold getVersion
  rw [get_insert]
  by_cases h : f = field
  · subst h
    simp only [if_pos, Option.bind_some, true_and, get_insert]
    by_cases h1 : n = name
    · subst h1; simp [eq_comm]
    · rw [if_neg h1, if_neg (fun e => h1 e.symm)]
      cases get p f <;> simp [get]
  · rw [if_neg h, if_neg (fun e => h e.1.symm)]

example : Wf sampleA ∧ Wf sampleB ∧ Readable sampleA ∧
    merge sampleA sampleB = [(language, [([67], [])]),
      (processedBy, [([99, 108, 97, 110, 103], [49]), ([108, 100], [51]), ([114], [52])]),
      (sdk, [([120], [])])] :=
  ⟨⟨by decide, by decide⟩, ⟨by decide, by decide⟩, by decide +kernel, by decide⟩

/-- **C36.** Whenever the section is written, reading it back gives the same fields, names and
versions in the same order. -/
theorem c36_roundtrip (p : Producers) (hp : Wf p) (hr : Readable p) (e : Enc) (bytes : List UInt8)
    (h : section_ p = some e) (hs : (Sect.custom producersName e.encode).encode = some bytes)
    (offset : Nat) : fromBytes e.encode offset = .ok p := by
  obtain ⟨h1, h2⟩ := section_some h
  obtain ⟨s1, s2⟩ := sum_lengths p
  have hlen : (p.flatMap fieldBytes).length < 2 ^ 32 := by
    have := (encode_some hs).1
    simp only [content, h1, List.length_append] at this
    omega
  have hpl : p.length < 2 ^ 32 := by omega
  rw [h1, fromBytes_eq]
  have hu := Dec.u32 (BitVec.ofNat 32 p.length)
    (Reader.new (encodeU32 (BitVec.ofNat 32 p.length) ++ p.flatMap fieldBytes) offset) _ rfl
  simp only [limitedNew, hu]
  rw [BitVec.toNat_ofNat, Nat.mod_eq_of_lt hpl]
  have := fields_loop p hr hp.names (fun e he => by have := s1 e he; omega) 0 []
    ((Reader.new (encodeU32 (BitVec.ofNat 32 p.length) ++ p.flatMap fieldBytes) offset).advance
      (encodeU32 (BitVec.ofNat 32 p.length)).length) [] (by simp [Reader.rest, Reader.new])
  rw [Nat.add_zero] at this
  rw [this]
  simp only [forEach]
  rw [if_pos (eof_of_rest (by simp [Reader.rest, Reader.new])),
    override_append (by simpa [keys] using hp.fields), List.nil_append]

/-- The section is written (no panic) when everything is short enough. -/
theorem c36_encodes (p : Producers)
    (h : ∀ f ∈ p, f.1.length < 2 ^ 32 ∧ ∀ nv ∈ f.2, nv.1.length < 2 ^ 32 ∧ nv.2.length < 2 ^ 32) :
    ∃ e, section_ p = some e := by
  have hv : ∀ (m : Field) (e : Enc), (∀ nv ∈ m, nv.1.length < 2 ^ 32 ∧ nv.2.length < 2 ^ 32) →
      ∃ e', m.foldlM (fun e nv => e.value nv.1 nv.2) e = some e' := by
    intro m
    induction m with
    | nil => exact fun e _ => ⟨e, rfl⟩
    | cons nv m ih =>
      intro e hm
      have h0 := hm nv (List.mem_cons_self ..)
      rw [List.foldlM_cons]
      simp only [Enc.value, encodeSlice_of h0.1, encodeSlice_of h0.2]
      exact ih _ fun x hx => hm x (List.mem_cons_of_mem _ hx)
  suffices ∀ e : Enc, ∃ e', p.foldlM (fun e fv => do
      let field ← fv.2.foldlM (fun e nv => e.value nv.1 nv.2) ({} : Enc)
      e.field fv.1 field) e = some e' from this _
  induction p with
  | nil => exact fun e => ⟨e, rfl⟩
  | cons f p ih =>
    intro e
    have h0 := h f (List.mem_cons_self ..)
    obtain ⟨e1, he1⟩ := hv f.2 {} h0.2
    rw [List.foldlM_cons]
    simp only [he1, Enc.field, encodeSlice_of h0.1]
    exact ih (fun x hx => h x (List.mem_cons_of_mem _ hx)) _

/-- `add` accepts any field, but the section with a field that is not one of the three of the
convention cannot be read: the first such field is an error. -/
theorem c36_other_field_unreadable (pre post : Producers) (f : Str) (m : Field) (hp : Wf pre)
    (hr : Readable pre) (hf : f ∉ fieldNames) (hv : validUtf8 f = true) (e : Enc) (bytes : List UInt8)
    (h : section_ (pre ++ (f, m) :: post) = some e)
    (hs : (Sect.custom producersName e.encode).encode = some bytes) (offset : Nat) :
    ∃ at_, fromBytes e.encode offset = .error (.msg "invalid producers field name" at_) := by
  obtain ⟨h1, h2⟩ := section_some h
  obtain ⟨s1, s2⟩ := sum_lengths (pre ++ (f, m) :: post)
  have hlen : ((pre ++ (f, m) :: post).flatMap fieldBytes).length < 2 ^ 32 := by
    have := (encode_some hs).1
    simp only [content, h1, List.length_append] at this ⊢
    omega
  have hfl : f.length < 2 ^ 32 := (h2 (f, m) (by simp)).1
  rw [h1, fromBytes_eq]
  have hu := Dec.u32 (BitVec.ofNat 32 (pre ++ (f, m) :: post).length)
    (Reader.new (encodeU32 (BitVec.ofNat 32 (pre ++ (f, m) :: post).length) ++
      (pre ++ (f, m) :: post).flatMap fieldBytes) offset) _ rfl
  simp only [limitedNew, hu]
  rw [BitVec.toNat_ofNat, Nat.mod_eq_of_lt (by omega), List.length_append]
  rw [fields_loop pre hr hp.names (fun x hx => by
    have := s1 x (List.mem_append_left _ hx); omega) _ _ _
    (((f, m) :: post).flatMap fieldBytes) (by simp [Reader.rest, Reader.new])]
  rw [List.length_cons]
  have : ∀ (r : Reader) (tail : List UInt8), r.rest = bodyBytes f ++ tail →
      readField r = .error (.msg "invalid producers field name" r.originalPosition) := by
    intro r tail hrr
    have hn : ¬ (f = language ∨ f = sdk ∨ f = processedBy) := by
      rw [fieldNames_eq] at hf
      simp only [List.mem_cons, List.not_mem_nil, or_false, not_or] at hf ⊢
      exact ⟨hf.1, hf.2.2, hf.2.1⟩
    unfold readField
    simp only [bind_apply, readPos, dec_unlimited hv hfl r tail hrr, if_neg hn, R.fail]
  exact ⟨_, forEach_err (this _ ((encodeU32 (BitVec.ofNat 32 m.length) ++ m.flatMap valueBytes) ++
    post.flatMap fieldBytes) (by simp [Reader.rest, Reader.new, fieldBytes]))⟩

/-- Such a section: `Producers::empty().add("tool", "x", "1")`. -/
example : add empty [116, 111, 111, 108] [120] [49] = [([116, 111, 111, 108], [([120], [49])])] ∧
    ([116, 111, 111, 108] : Str) ∉ fieldNames := by decide +kernel

/-- The string limit of the reader is needed: a version of 100001 bytes is written but not read. -/
theorem c36_long_unreadable (n : Str) (v : Str) (hn : n.length ≤ 100000) (hl : 100000 < v.length)
    (hv : v.length < 2 ^ 32) (offset : Nat) :
    ∃ e, section_ (add empty sdk n v) = some e ∧
      ∃ at_, fromBytes e.encode offset = .error (.msg "string size out of bounds" at_) := by
  have hp : add empty sdk n v = [(sdk, [(n, v)])] := rfl
  have hsdk : sdk.length < 2 ^ 32 := by decide
  obtain ⟨e, he⟩ := c36_encodes (add empty sdk n v) (by
    rw [hp]
    intro f hf
    simp only [List.mem_singleton] at hf
    subst hf
    refine ⟨hsdk, fun nv hnv => ?_⟩
    simp only [List.mem_singleton] at hnv
    subst hnv
    exact ⟨by show n.length < _; omega, hv⟩)
  refine ⟨e, he, ?_⟩
  obtain ⟨h1, _⟩ := section_some he
  rw [hp] at h1
  rw [h1, fromBytes_eq]
  have hu := Dec.u32 (BitVec.ofNat 32 1)
    (Reader.new (encodeU32 (BitVec.ofNat 32 1) ++ [(sdk, [(n, v)])].flatMap fieldBytes) offset) _ rfl
  simp only [limitedNew, List.length_singleton, hu]
  rw [BitVec.toNat_ofNat, Nat.mod_eq_of_lt (by decide)]
  have hskip : ∀ (r : Reader) (tail : List UInt8), r.rest = bodyBytes v ++ tail →
      ∃ a, skipString r = .error (.msg "string size out of bounds" a) := by
    intro r tail hr
    unfold skipString
    rw [bodyBytes, ← encodeU32_ofNat hv, List.append_assoc] at hr
    simp only [bind_apply, Dec.u32 _ r _ hr, BitVec.toNat_ofNat, Nat.mod_eq_of_lt hv]
    rw [if_pos (by simpa [maxWasmStringSize] using hl)]
    exact ⟨_, rfl⟩
  have hf : ∀ (r : Reader) (tail : List UInt8), r.rest = fieldBytes (sdk, [(n, v)]) ++ tail →
      ∃ a, readField r = .error (.msg "string size out of bounds" a) := by
    intro r tail hr
    unfold readField
    simp only [fieldBytes, List.flatMap_cons, List.flatMap_nil, valueBytes, List.append_assoc] at hr
    have e1 := dec_unlimited (s := sdk) (by decide +kernel) hsdk r _ hr
    obtain ⟨r1, hr1⟩ : ∃ r1, r1 = r.advance (bodyBytes sdk).length := ⟨_, rfl⟩
    have hr1' : r1.rest = encodeU32 (BitVec.ofNat 32 1) ++ (bodyBytes n ++ (bodyBytes v ++ ([] ++ tail))) := by
      rw [hr1]; simp [hr]
    have e2 := Dec.u32 _ r1 _ hr1'
    have hr2 : (r1.advance (encodeU32 (BitVec.ofNat 32 1)).length).rest =
      bodyBytes n ++ (bodyBytes v ++ ([] ++ tail)) := by simp [hr1']
    have e3 := dec_skip hn _ _ hr2
    have hr3 : ((r1.advance (encodeU32 (BitVec.ofNat 32 1)).length).advance (bodyBytes n).length).rest =
      bodyBytes v ++ ([] ++ tail) := by rw [Reader.rest_advance, hr2]; simp
    obtain ⟨a, e4⟩ := hskip _ _ hr3
    refine ⟨a, ?_⟩
    rw [← hr1] at e1
    simp only [bind_apply, readPos, e1, true_or, or_true, if_true, skip, e2]
    have : (BitVec.ofNat 32 1).toNat = 0 + 1 := by decide
    rw [this]
    simp only [readMany, bind_apply, e3, e4]
  obtain ⟨a, ha⟩ := hf _ [] (show ((Reader.new (encodeU32 (BitVec.ofNat 32 1) ++
    [(sdk, [(n, v)])].flatMap fieldBytes) offset).advance
      (encodeU32 (BitVec.ofNat 32 1)).length).rest = fieldBytes (sdk, [(n, v)]) ++ [] by
    simp [Reader.rest, Reader.new])
  exact ⟨a, forEach_err ha⟩

end Verif.Meta.Props
