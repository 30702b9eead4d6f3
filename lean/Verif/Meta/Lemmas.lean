import Verif.Meta.Spec
import Verif.Framing.Lemmas
import Mathlib.Data.List.Nodup
/-! Lemmas about ordered maps and the producers section. -/
namespace Verif.Meta
open Verif.Leb Verif.Reader Verif.Parser Verif.Framing Spec

/-! ## Ordered maps -/

def keys (m : List (Str × α)) : List Str := m.map Prod.fst

theorem get_insert (m : List (Str × α)) (k k' : Str) (v : α) :
    get (insert m k v) k' = if k = k' then some v else get m k' := by
  induction m with
  | nil => simp only [insert, get]
  | cons e m ih =>
    obtain ⟨a, b⟩ := e
    simp only [insert, get]
    split
    · rename_i h; subst h
      simp only [get]
      split <;> rfl
    · simp only [get, ih]
      split
      · rename_i h h1; subst h1
        rw [if_neg (fun hh => h hh.symm)]
      · rfl

theorem keys_insert (m : List (Str × α)) (k : Str) (v : α) :
    keys (insert m k v) = if k ∈ keys m then keys m else keys m ++ [k] := by
  induction m with
  | nil => simp [insert, keys]
  | cons e m ih =>
    obtain ⟨a, b⟩ := e
    simp only [insert]
    split
    · rename_i h; subst h; simp [keys]
    · rename_i h
      have h' : ¬ k = a := fun e => h e.symm
      simp only [keys, List.map_cons, List.mem_cons, h', false_or] at ih ⊢
      rw [ih]
      by_cases hk : k ∈ List.map Prod.fst m <;> simp [hk]

theorem get_none {m : List (Str × α)} {k : Str} : get m k = none ↔ k ∉ keys m := by
  induction m with
  | nil => simp [get, keys]
  | cons e m ih =>
    obtain ⟨a, b⟩ := e
    simp only [get, keys, List.map_cons, List.mem_cons, not_or] at ih ⊢
    split
    · rename_i h; simp [h]
    · rename_i h
      rw [ih]
      exact ⟨fun x => ⟨fun e => h e.symm, x⟩, fun x => x.2⟩

theorem mem_of_get {m : List (Str × α)} {k : Str} {v : α} (h : get m k = some v) : (k, v) ∈ m := by
  induction m with
  | nil => cases h
  | cons e m ih =>
    obtain ⟨a, b⟩ := e
    simp only [get] at h
    split at h
    · rename_i h1; subst h1; cases h; exact List.mem_cons_self ..
    · exact List.mem_cons_of_mem _ (ih h)

theorem get_of_mem {m : List (Str × α)} {k : Str} {v : α} (hn : (keys m).Nodup) (h : (k, v) ∈ m) :
    get m k = some v := by
  induction m with
  | nil => cases h
  | cons e m ih =>
    obtain ⟨a, b⟩ := e
    simp only [keys, List.map_cons, List.nodup_cons] at hn
    simp only [get]
    rcases List.mem_cons.mp h with h1 | h1
    · cases h1; rw [if_pos rfl]
    · have : k ∈ m.map Prod.fst := List.mem_map.mpr ⟨_, h1, rfl⟩
      rw [if_neg (fun e : a = k => hn.1 (e ▸ this))]
      exact ih hn.2 h1

theorem get_iff {m : List (Str × α)} (hn : (keys m).Nodup) {k : Str} {v : α} :
    get m k = some v ↔ (k, v) ∈ m := ⟨mem_of_get, get_of_mem hn⟩

theorem nodup_insert {m : List (Str × α)} (h : (keys m).Nodup) (k : Str) (v : α) :
    (keys (insert m k v)).Nodup := by
  rw [keys_insert]
  split
  · exact h
  · rename_i hk
    rw [List.nodup_append]
    refine ⟨h, by simp, ?_⟩
    intro a ha b hb
    simp at hb
    subst hb
    exact fun e => hk (e ▸ ha)

theorem insert_insert (m : List (Str × α)) (k : Str) (v w : α) :
    insert (insert m k v) k w = insert m k w := by
  induction m with
  | nil => simp [insert]
  | cons e m ih =>
    obtain ⟨a, b⟩ := e
    simp only [insert]
    split
    · rename_i h; simp only [insert, if_pos h]
    · rename_i h
      simp only [insert, h, if_false, ih]

theorem insert_new {m : List (Str × α)} {k : Str} (h : k ∉ keys m) (v : α) :
    insert m k v = m ++ [(k, v)] := by
  induction m with
  | nil => rfl
  | cons e m ih =>
    obtain ⟨a, b⟩ := e
    simp only [keys, List.map_cons, List.mem_cons, not_or] at h ih
    simp only [insert]
    rw [if_neg (fun e => h.1 e.symm), ih h.2]
    rfl

theorem mem_insert {m : List (Str × α)} {k : Str} {v : α} {e} (h : e ∈ insert m k v) :
    e = (k, v) ∨ e ∈ m := by
  induction m with
  | nil => simp [insert] at h; exact .inl h
  | cons x m ih =>
    obtain ⟨a, b⟩ := x
    simp only [insert] at h
    split at h
    · rename_i h1; subst h1
      rcases List.mem_cons.mp h with h | h
      · exact .inl h
      · exact .inr (List.mem_cons_of_mem _ h)
    · rcases List.mem_cons.mp h with h | h
      · exact .inr (h ▸ List.mem_cons_self ..)
      · rcases ih h with h | h
        · exact .inl h
        · exact .inr (List.mem_cons_of_mem _ h)

/-- Inserting all entries of `m` into `a`. -/
def override (a m : List (Str × α)) : List (Str × α) :=
  m.foldl (fun a e => insert a e.1 e.2) a

theorem get_override {m : List (Str × α)} (hn : (keys m).Nodup) (a : List (Str × α)) (k : Str) :
    get (override a m) k = (get m k).or (get a k) := by
  induction m generalizing a with
  | nil => simp [override, get]
  | cons e m ih =>
    obtain ⟨x, b⟩ := e
    simp only [keys, List.map_cons, List.nodup_cons] at hn
    show get (override (insert a x b) m) k = _
    rw [ih hn.2, get_insert]
    simp only [get]
    split
    · rename_i h; subst h
      rw [get_none.mpr hn.1]
      rfl
    · rfl

theorem keys_override {m : List (Str × α)} (hn : (keys m).Nodup) (a : List (Str × α)) :
    keys (override a m) = keys a ++ (keys m).filter (· ∉ keys a) := by
  induction m generalizing a with
  | nil => simp [override, keys]
  | cons e m ih =>
    obtain ⟨x, b⟩ := e
    simp only [keys, List.map_cons, List.nodup_cons] at hn
    show keys (override (insert a x b) m) = _
    rw [ih hn.2, keys_insert]
    have hk : keys ((x, b) :: m) = x :: keys m := rfl
    rw [hk]
    split
    · rename_i h
      rw [List.filter_cons_of_neg (by simpa using h)]
    · rename_i h
      rw [List.filter_cons_of_pos (by simpa using h), List.append_assoc, List.singleton_append]
      congr 2
      apply List.filter_congr
      intro y hy
      have : y ≠ x := fun e => hn.1 (e ▸ hy)
      simp [this]

theorem nodup_override {m : List (Str × α)} {a : List (Str × α)} (ha : (keys a).Nodup) :
    (keys (override a m)).Nodup := by
  induction m generalizing a with
  | nil => exact ha
  | cons e m ih => exact ih (nodup_insert ha _ _)

/-! ## `add` and `merge` -/

theorem add_eq (p : Producers) (f n v : Str) :
    add p f n v = insert p f (insert ((get p f).getD []) n v) := by
  unfold add
  split
  · rename_i m h; rw [h]; rfl
  · rename_i h
    rw [h, insert_new (get_none.mp h)]; rfl

theorem addAll_eq (p : Producers) (f : Str) (e : Str × Str) (m : Field) :
    (e :: m).foldl (fun p nv => add p f nv.1 nv.2) p =
      insert p f (override ((get p f).getD []) (e :: m)) := by
  induction m generalizing p e with
  | nil => exact add_eq ..
  | cons e' m ih =>
    rw [List.foldl_cons, ih, add_eq, insert_insert, get_insert, if_pos rfl]
    rfl

/-- One field of `merge`. -/
def mergeField (p : Producers) (e : Str × Field) : Producers :=
  if e.2 = [] then p else insert p e.1 (override ((get p e.1).getD []) e.2)

theorem merge_eq (p q : Producers) : merge p q = q.foldl mergeField p := by
  unfold merge
  congr 1
  funext p e
  obtain ⟨f, m⟩ := e
  cases m with
  | nil => rfl
  | cons x m => rw [addAll_eq]; simp [mergeField]

theorem get_mergeField (p : Producers) (e : Str × Field) (f : Str) :
    get (mergeField p e) f =
      if e.1 = f ∧ e.2 ≠ [] then some (override ((get p f).getD []) e.2) else get p f := by
  unfold mergeField
  by_cases h : e.2 = []
  · simp [h]
  · rw [if_neg h, get_insert]
    by_cases h1 : e.1 = f
    · subst h1; simp [h]
    · simp [h1]

theorem get_merge {q : Producers} (hq : (keys q).Nodup) (p : Producers) (f : Str) :
    get (merge p q) f =
      if (get q f).getD [] = [] then get p f
      else some (override ((get p f).getD []) ((get q f).getD [])) := by
  rw [merge_eq]
  induction q generalizing p with
  | nil => simp [get]
  | cons e q ih =>
    obtain ⟨g, m⟩ := e
    simp only [keys, List.map_cons, List.nodup_cons] at hq
    rw [List.foldl_cons, ih hq.2, get_mergeField]
    simp only [get]
    by_cases h : g = f
    · subst h
      have hg : get q g = none := get_none.mpr hq.1
      simp only [hg, if_pos, Option.getD_some, Option.getD_none, true_and]
      by_cases hm : m = []
      · simp [hm]
      · simp [hm]
    · simp only [h, if_false, false_and]

theorem keys_mergeField (p : Producers) (e : Str × Field) :
    keys (mergeField p e) = if e.2 = [] ∨ e.1 ∈ keys p then keys p else keys p ++ [e.1] := by
  unfold mergeField
  by_cases h : e.2 = []
  · simp [h]
  · rw [if_neg h, keys_insert]
    simp [h]

theorem keys_merge {q : Producers} (hq : (keys q).Nodup) (p : Producers) :
    keys (merge p q) = keys p ++ (keys (q.filter fun e => e.2 ≠ [])).filter (· ∉ keys p) := by
  rw [merge_eq]
  induction q generalizing p with
  | nil => simp [keys]
  | cons e q ih =>
    obtain ⟨g, m⟩ := e
    simp only [keys, List.map_cons, List.nodup_cons] at hq
    rw [List.foldl_cons, ih hq.2, keys_mergeField]
    by_cases hm : m = []
    · simp [hm]
    · have hk : keys (((g, m) :: q).filter fun e => e.2 ≠ []) =
          g :: keys (q.filter fun e => e.2 ≠ []) := by simp [keys, hm]
      rw [hk]
      by_cases hg : g ∈ keys p
      · rw [if_pos (.inr hg), List.filter_cons_of_neg (by simpa using hg)]
      · rw [if_neg (by simp [hm, hg]), List.filter_cons_of_pos (by simpa using hg),
          List.append_assoc, List.singleton_append]
        congr 2
        apply List.filter_congr
        intro y hy
        have : y ≠ g := by
          rintro rfl
          obtain ⟨x, hx, hxy⟩ := List.mem_map.mp hy
          exact hq.1 (List.mem_map.mpr ⟨x, (List.mem_filter.mp hx).1, hxy⟩)
        simp [this]

theorem wf_insert {p : Producers} (h : Wf p) (f : Str) {m : Field} (hm : (keys m).Nodup) :
    Wf (insert p f m) := by
  refine ⟨nodup_insert h.fields f m, ?_⟩
  intro e he
  rcases mem_insert he with rfl | he
  · exact hm
  · exact h.names e he

theorem nodup_field {p : Producers} (h : Wf p) (f : Str) : (keys ((get p f).getD [])).Nodup := by
  cases hg : get p f with
  | none => simp [keys]
  | some m => exact h.names _ (mem_of_get hg)

theorem wf_add {p : Producers} (h : Wf p) (f n v : Str) : Wf (add p f n v) := by
  rw [add_eq]
  exact wf_insert h f (nodup_insert (nodup_field h f) _ _)

theorem wf_addAll {p : Producers} (h : Wf p) (f : Str) (m : Field) :
    Wf (m.foldl (fun p nv => add p f nv.1 nv.2) p) := by
  induction m generalizing p with
  | nil => exact h
  | cons e m ih => exact ih (wf_add h ..)

theorem wf_merge {p : Producers} (h : Wf p) (q : Producers) : Wf (merge p q) := by
  unfold merge
  induction q generalizing p with
  | nil => exact h
  | cons e q ih => exact ih (wf_addAll h ..)

theorem wf_empty : Wf empty := ⟨by simp [empty], by simp [empty]⟩

theorem namesIn_eq {p : Producers} (h : (keys p).Nodup) (f : Str) :
    namesIn p f = keys ((get p f).getD []) := by
  induction p with
  | nil => rfl
  | cons e p ih =>
    obtain ⟨g, m⟩ := e
    simp only [keys, List.map_cons, List.nodup_cons] at h
    simp only [namesIn, List.flatMap_cons, get]
    split
    · rename_i hg; subst hg
      have : namesIn p g = [] := by
        rw [ih h.2, get_none.mpr h.1]; rfl
      rw [namesIn] at this
      rw [this, List.append_nil]; rfl
    · exact ih h.2

theorem has_iff {p : Producers} (h : Wf p) (f n v : Str) : Has p f n v ↔ getVersion p f n = some v := by
  unfold getVersion
  constructor
  · rintro ⟨m, h1, h2⟩
    rw [get_of_mem h.fields h1]
    exact get_of_mem (h.names _ h1) h2
  · intro hh
    obtain ⟨m, h1, h2⟩ := Option.bind_eq_some_iff.mp hh
    exact ⟨m, mem_of_get h1, mem_of_get h2⟩

theorem getVersion_merge {p q : Producers} (hq : Wf q) (f n : Str) :
    getVersion (merge p q) f n = (getVersion q f n).or (getVersion p f n) := by
  unfold getVersion
  rw [get_merge hq.fields]
  cases h : get q f with
  | none => simp
  | some m =>
    by_cases hm : m = []
    · simp [hm, get]
    · simp only [Option.getD_some, hm, if_false, Option.bind_some]
      rw [get_override (hq.names _ (mem_of_get h))]
      cases get p f <;> rfl

/-! ## Reading gives well-formed sections -/

theorem forEach_inv {f : R α} {step : β → α → Except Err β} {P : β → Prop}
    (hstep : ∀ b a b', P b → step b a = .ok b' → P b') :
    ∀ (n : Nat) (b : β) (r : Reader) (b' : β), P b → forEach f step n b r = .ok b' → P b' := by
  intro n
  induction n with
  | zero =>
    intro b r b' hb h
    simp only [forEach] at h
    split at h <;> cases h
    exact hb
  | succ n ih =>
    intro b r b' hb h
    simp only [forEach] at h
    split at h
    · cases h
    · split at h
      · cases h
      · rename_i h2
        exact ih _ _ _ (hstep _ _ _ hb h2) h

theorem readValues_nodup {s : BitVec 32 × Reader} {m : Field} (h : readValues s = .ok m) :
    (keys m).Nodup := by
  refine forEach_inv (P := fun m => (keys m).Nodup) ?_ _ _ _ _ ?_ h
  · intro b a b' hb hh
    cases hh
    exact nodup_insert hb _ _
  · simp [keys]

theorem fromBytes_wf {bytes : List UInt8} {off : Nat} {p : Producers}
    (h : fromBytes bytes off = .ok p) : Wf p := by
  unfold fromBytes at h
  split at h
  · cases h
  · refine forEach_inv (P := Wf) ?_ _ _ _ _ wf_empty h
    intro b a b' hb hh
    split at hh
    · cases hh
    · rename_i h2
      cases hh
      exact wf_insert hb _ (readValues_nodup h2)

theorem reach_wf {p : Producers} (h : Reach p) : Wf p := by
  induction h with
  | empty => exact wf_empty
  | read h => exact fromBytes_wf h
  | fromMeta ls ps ss => exact wf_addAll (wf_addAll (wf_addAll wf_empty ..) ..) ..
  | add f n v _ ih => exact wf_add ih ..
  | merge _ _ ih _ => exact wf_merge ih _

/-! ## What the encoder writes -/

def valueBytes (nv : Str × Str) : List UInt8 := bodyBytes nv.1 ++ bodyBytes nv.2

def fieldBytes (e : Str × Field) : List UInt8 :=
  bodyBytes e.1 ++ (encodeU32 (BitVec.ofNat 32 e.2.length) ++ e.2.flatMap valueBytes)

theorem bv_succ (c : BitVec 32) (n : Nat) : c + 1 + BitVec.ofNat 32 n = c + BitVec.ofNat 32 (n + 1) := by
  rw [BitVec.add_assoc]
  congr 1
  apply BitVec.eq_of_toNat_eq
  simp [Nat.add_comm]

theorem fold_values {m : Field} {e e' : Enc} (h : m.foldlM (fun e nv => e.value nv.1 nv.2) e = some e') :
    e'.bytes = e.bytes ++ m.flatMap valueBytes ∧ e'.count = e.count + BitVec.ofNat 32 m.length ∧
    ∀ nv ∈ m, nv.1.length < 2 ^ 32 ∧ nv.2.length < 2 ^ 32 := by
  induction m generalizing e with
  | nil => simp at h; subst h; simp
  | cons nv m ih =>
    rw [List.foldlM_cons] at h
    obtain ⟨e1, h1, h2⟩ := Option.bind_eq_some_iff.mp h
    unfold Enc.value at h1
    obtain ⟨n, h3, h4⟩ := Option.bind_eq_some_iff.mp h1
    obtain ⟨v, h5, h6⟩ := Option.bind_eq_some_iff.mp h4
    obtain ⟨l1, rfl⟩ := encodeSlice_some h3
    obtain ⟨l2, rfl⟩ := encodeSlice_some h5
    cases h6
    obtain ⟨i1, i2, i3⟩ := ih h2
    refine ⟨by simp [i1, valueBytes], ?_, ?_⟩
    · rw [i2]; exact bv_succ ..
    · simp only [List.mem_cons]
      rintro x (rfl | hx)
      · exact ⟨l1, l2⟩
      · exact i3 x hx

theorem fold_fields {p : Producers} {e e' : Enc}
    (h : p.foldlM (fun e fv => do
      let field ← fv.2.foldlM (fun e nv => e.value nv.1 nv.2) ({} : Enc)
      e.field fv.1 field) e = some e') :
    e'.bytes = e.bytes ++ p.flatMap fieldBytes ∧ e'.count = e.count + BitVec.ofNat 32 p.length ∧
    ∀ f ∈ p, f.1.length < 2 ^ 32 ∧ ∀ nv ∈ f.2, nv.1.length < 2 ^ 32 ∧ nv.2.length < 2 ^ 32 := by
  induction p generalizing e with
  | nil => simp at h; subst h; simp
  | cons f p ih =>
    rw [List.foldlM_cons] at h
    obtain ⟨e1, h1, h2⟩ := Option.bind_eq_some_iff.mp h
    obtain ⟨ev, h3, h4⟩ := Option.bind_eq_some_iff.mp h1
    obtain ⟨v1, v2, v3⟩ := fold_values h3
    unfold Enc.field at h4
    obtain ⟨n, h5, h6⟩ := Option.bind_eq_some_iff.mp h4
    obtain ⟨l1, rfl⟩ := encodeSlice_some h5
    cases h6
    obtain ⟨i1, i2, i3⟩ := ih h2
    simp only [List.nil_append, BitVec.zero_add] at v1 v2
    refine ⟨?_, ?_, ?_⟩
    · rw [i1]
      simp [List.flatMap_cons, fieldBytes, Enc.encode, v1, v2]
    · rw [i2]; exact bv_succ ..
    · simp only [List.mem_cons]
      rintro x (rfl | hx)
      · exact ⟨l1, v3⟩
      · exact i3 x hx

/-- The contents of the custom section. -/
theorem section_some {p : Producers} {e : Enc} (h : section_ p = some e) :
    e.encode = encodeU32 (BitVec.ofNat 32 p.length) ++ p.flatMap fieldBytes ∧
    ∀ f ∈ p, f.1.length < 2 ^ 32 ∧ ∀ nv ∈ f.2, nv.1.length < 2 ^ 32 ∧ nv.2.length < 2 ^ 32 := by
  obtain ⟨h1, h2, h3⟩ := fold_fields h
  simp only [List.nil_append, BitVec.zero_add] at h1 h2
  exact ⟨by rw [Enc.encode, h1, h2]; simp, h3⟩

/-! ## Reading it back -/

theorem dec_internal {s : Str} (h : validUtf8 s = true) : Dec (internalReadString s.length) s s := by
  unfold internalReadString
  exact (Dec.readBytes s).bind_nil (.ite_pos h (.pure _))

theorem dec_unlimited {s : Str} (h : validUtf8 s = true) (hl : s.length < 2 ^ 32) :
    Dec readUnlimitedString (bodyBytes s) s := by
  unfold readUnlimitedString bodyBytes
  rw [← encodeU32_ofNat hl]
  refine (Dec.u32 _).bind ?_
  rw [BitVec.toNat_ofNat, Nat.mod_eq_of_lt hl]
  exact dec_internal h

theorem dec_advance (s : List UInt8) : Dec (advanceBy s.length) s () := by
  intro r tail h
  have hl : s.length ≤ r.rest.length := by rw [h]; simp
  unfold advanceBy
  rw [ensureHasBytes_eq, if_pos hl]
  rfl

theorem dec_skip {s : Str} (hl : s.length ≤ 100000) : Dec skipString (bodyBytes s) () := by
  unfold skipString bodyBytes
  rw [← encodeU32_ofNat (n := s.length) (by omega)]
  refine (Dec.u32 _).bind ?_
  rw [BitVec.toNat_ofNat, Nat.mod_eq_of_lt (by omega)]
  exact .ite_neg (by simp [maxWasmStringSize]; omega) (dec_advance s)

theorem forEach_step {f : R α} {step : β → α → Except Err β} {n : Nat} {b b' : β} {r r' : Reader} {a : α}
    (h1 : f r = .ok (a, r')) (h2 : step b a = .ok b') :
    forEach f step (n + 1) b r = forEach f step n b' r' := by
  simp only [forEach, h1, h2]

theorem forEach_err {f : R α} {step : β → α → Except Err β} {n : Nat} {b : β} {r : Reader} {e : Err}
    (h1 : f r = .error e) : forEach f step (n + 1) b r = .error e := by
  simp only [forEach, h1]

theorem eof_of_rest {r : Reader} (h : r.rest = []) : r.eof = true := by
  have := congrArg List.length h
  rw [Reader.length_rest] at this
  simp [Reader.eof, Reader.maxPosition] at this ⊢
  omega

theorem override_append {a m : List (Str × α)} (h : (keys (a ++ m)).Nodup) : override a m = a ++ m := by
  induction m generalizing a with
  | nil => simp [override]
  | cons e m ih =>
    show override (insert a e.1 e.2) m = _
    have hk : e.1 ∉ keys a := by
      simp only [keys, List.map_append, List.map_cons] at h
      rw [List.nodup_append] at h
      intro hm
      exact h.2.2 _ hm _ (List.mem_cons_self ..) rfl
    rw [insert_new hk, ih]
    · simp
    · simpa using h

theorem dec_value {nv : Str × Str} (h1 : validUtf8 nv.1 = true) (h2 : validUtf8 nv.2 = true)
    (l1 : nv.1.length < 2 ^ 32) (l2 : nv.2.length < 2 ^ 32) : Dec readFieldValue (valueBytes nv) nv := by
  unfold readFieldValue valueBytes
  exact (dec_unlimited h1 l1).bind ((dec_unlimited h2 l2).bind_nil (.pure _))

theorem values_loop (m : Field) (hm : ∀ nv ∈ m, Dec readFieldValue (valueBytes nv) nv) (acc : Field)
    (r : Reader) (hr : r.rest = m.flatMap valueBytes) :
    forEach readFieldValue (fun m nv => .ok (insert m nv.1 nv.2)) m.length acc r = .ok (override acc m) := by
  induction m generalizing acc r with
  | nil =>
    simp only [List.length_nil, forEach]
    rw [if_pos (eof_of_rest hr)]
    rfl
  | cons nv m ih =>
    rw [List.flatMap_cons] at hr
    rw [List.length_cons, forEach_step (hm nv (List.mem_cons_self ..) r _ hr) rfl]
    exact ih (fun x hx => hm x (List.mem_cons_of_mem _ hx)) _ _ (by simp [hr])

def GoodValues (m : Field) : Prop := ∀ nv ∈ m, validUtf8 nv.1 ∧ validUtf8 nv.2 ∧
  nv.1.length ≤ 100000 ∧ nv.2.length ≤ 100000

theorem fieldNames_eq : fieldNames = [language, processedBy, sdk] := by decide +kernel

theorem dec_values {m : Field} (h : GoodValues m) (hl : m.length < 2 ^ 32) :
    Dec (do
      let n ← readVarU32
      let _ ← readMany (do skipString; skipString) n.toNat)
      (encodeU32 (BitVec.ofNat 32 m.length) ++ m.flatMap valueBytes) () := by
  refine (Dec.u32 _).bind ?_
  rw [BitVec.toNat_ofNat, Nat.mod_eq_of_lt hl]
  have : Dec (readMany (do skipString; skipString) m.length) (m.flatMap valueBytes) (m.map fun _ => ()) := by
    clear hl
    induction m with
    | nil => exact .pure _
    | cons nv m ih =>
      have h1 := h nv (List.mem_cons_self ..)
      rw [List.flatMap_cons, List.map_cons, List.length_cons]
      exact ((dec_skip h1.2.2.1).bind (dec_skip h1.2.2.2)).bind
        ((ih fun x hx => h x (List.mem_cons_of_mem _ hx)).bind_nil (.pure _))
  exact this.bind_nil (.pure _)

theorem readField_enc {e : Str × Field} (hn : e.1 ∈ fieldNames) (h : GoodValues e.2)
    (hl : e.2.length < 2 ^ 32) {r : Reader} {tail : List UInt8} (hr : r.rest = fieldBytes e ++ tail) :
    ∃ rd, readField r = .ok ((e.1, BitVec.ofNat 32 e.2.length, rd), r.advance (fieldBytes e).length) ∧
      rd.rest = e.2.flatMap valueBytes := by
  have hn' : e.1 = language ∨ e.1 = sdk ∨ e.1 = processedBy := by
    rw [fieldNames_eq] at hn
    simp only [List.mem_cons, List.not_mem_nil, or_false] at hn
    rcases hn with h | h | h <;> simp [h]
  have hv : validUtf8 e.1 = true ∧ e.1.length < 2 ^ 32 := by
    rcases hn' with h | h | h <;> rw [h] <;> decide +kernel
  unfold readField
  rw [fieldBytes, List.append_assoc] at hr
  have h1 := dec_unlimited hv.1 hv.2 r _ hr
  have hr2 : (r.advance (bodyBytes e.1).length).rest =
      (encodeU32 (BitVec.ofNat 32 e.2.length) ++ e.2.flatMap valueBytes) ++ tail := by simp [hr]
  have h2 := (dec_values h hl).skip (r.advance (bodyBytes e.1).length) tail hr2
  refine ⟨⟨encodeU32 (BitVec.ofNat 32 e.2.length) ++ e.2.flatMap valueBytes,
    (encodeU32 (BitVec.ofNat 32 e.2.length)).length,
    (r.advance (bodyBytes e.1).length).originalPosition⟩, ?_, ?_⟩
  · have h3 := Dec.u32 (BitVec.ofNat 32 e.2.length)
      ⟨encodeU32 (BitVec.ofNat 32 e.2.length) ++ e.2.flatMap valueBytes, 0,
        (r.advance (bodyBytes e.1).length).originalPosition⟩ (e.2.flatMap valueBytes) rfl
    simp only [bind_apply, readPos, h1, if_pos hn', h2, inner, limitedNew, h3]
    simp [fieldBytes, Reader.advance, Nat.add_assoc]
    rfl
  · simp [Reader.rest]

def stepField (fields : Producers) (f : Str × BitVec 32 × Reader) : Except Err Producers :=
  match readValues f.2 with
  | .error e => .error e
  | .ok values => .ok (insert fields f.1 values)

theorem fromBytes_eq (bytes : List UInt8) (off : Nat) : fromBytes bytes off =
    match limitedNew (Reader.new bytes off) with
    | .error e => .error e
    | .ok (count, rd) => forEach readField stepField count.toNat [] rd := rfl

theorem stepField_enc {e : Str × Field} (h : GoodValues e.2) (hd : (keys e.2).Nodup)
    (hl : e.2.length < 2 ^ 32) {rd : Reader} (hr : rd.rest = e.2.flatMap valueBytes) (acc : Producers) :
    stepField acc (e.1, BitVec.ofNat 32 e.2.length, rd) = .ok (insert acc e.1 e.2) := by
  have : readValues (BitVec.ofNat 32 e.2.length, rd) = .ok e.2 := by
    unfold readValues
    rw [BitVec.toNat_ofNat, Nat.mod_eq_of_lt hl]
    rw [values_loop _ _ _ _ hr, override_append (by simpa using hd), List.nil_append]
    intro nv hnv
    have := h nv hnv
    exact dec_value this.1 this.2.1 (by omega) (by omega)
  simp only [stepField, this]

/-- Reading some fields that were written. -/
theorem fields_loop (p : Producers) (h : Readable p) (hd : ∀ e ∈ p, (keys e.2).Nodup)
    (hl : ∀ e ∈ p, e.2.length < 2 ^ 32) (n : Nat) (acc : Producers) (r : Reader) (tail : List UInt8)
    (hr : r.rest = p.flatMap fieldBytes ++ tail) :
    forEach readField stepField (p.length + n) acc r =
      forEach readField stepField n (override acc p) (r.advance (p.flatMap fieldBytes).length) := by
  induction p generalizing acc r with
  | nil => simp [override]
  | cons e p ih =>
    rw [List.flatMap_cons, List.append_assoc] at hr
    have hm := List.mem_cons_self (a := e) (l := p)
    obtain ⟨rd, h1, h2⟩ := readField_enc (h e hm).1 (h e hm).2 (hl e hm) hr
    have h3 := stepField_enc (h e hm).2 (hd e hm) (hl e hm) h2 acc
    rw [List.length_cons, show p.length + 1 + n = (p.length + n) + 1 from by omega, forEach_step h1 h3,
      ih (fun x hx => h x (List.mem_cons_of_mem _ hx)) (fun x hx => hd x (List.mem_cons_of_mem _ hx))
        (fun x hx => hl x (List.mem_cons_of_mem _ hx)) _ _ (by simp [hr])]
    simp [override]

theorem sum_lengths (p : Producers) :
    (∀ e ∈ p, e.2.length ≤ (p.flatMap fieldBytes).length) ∧
      p.length ≤ (p.flatMap fieldBytes).length := by
  have hv : ∀ m : Field, m.length ≤ (m.flatMap valueBytes).length := by
    intro m
    induction m with
    | nil => simp
    | cons x m ih =>
      have := encodeU_pos x.1.length
      simp only [List.flatMap_cons, List.length_append, List.length_cons, valueBytes, bodyBytes] at ih ⊢
      omega
  induction p with
  | nil => simp
  | cons x p ih =>
    have h1 := encodeU_pos x.1.length
    have h2 := hv x.2
    simp only [List.flatMap_cons, List.length_append, List.length_cons, fieldBytes, bodyBytes] at ih ⊢
    refine ⟨?_, by omega⟩
    intro e he
    rcases List.mem_cons.mp he with rfl | he
    · omega
    · have := ih.1 e he; omega

end Verif.Meta
