import Verif.Deinline.Spec

namespace Verif.Deinline

open Verif.Expand Verif.Resolve

theorem pushExports_some (s : Space) (x : Id) : ∀ (es : List String) (n : Nat),
    pushExports s es (some x) n = (es.map (fun e => { field := .export s (.id x), name := e }), some x, n)
  | [], n => rfl
  | e :: es, n => by simp [pushExports, fill, pushExports_some s x es]

theorem pushExports_none (s : Space) (e : String) (es : List String) (n : Nat) :
    pushExports s (e :: es) none n =
      ((e :: es).map (fun e => { field := .export s (.id ⟨"gensym", n + 1⟩), name := e }), some ⟨"gensym", n + 1⟩, n + 1) := by
  simp [pushExports, fill, pushExports_some]

theorem pages_spec (len : Nat) (ps : Option Nat) : IsPages len ps (pages len ps) := by
  have key : ∀ k : Nat, len ≤ (len + 2 ^ k - 1) / 2 ^ k * 2 ^ k ∧ ∀ q, len ≤ q * 2 ^ k → (len + 2 ^ k - 1) / 2 ^ k ≤ q := by
    intro k
    have hp : 0 < 2 ^ k := Nat.two_pow_pos k
    generalize 2 ^ k = m at hp
    constructor
    · have h1 := Nat.div_add_mod (len + m - 1) m
      have h2 := Nat.mod_lt (len + m - 1) hp
      rw [Nat.mul_comm] at h1
      omega
    · intro q hq
      apply Nat.le_of_lt_succ
      rw [Nat.div_lt_iff_lt_mul hp, Nat.succ_mul]
      omega
  cases ps with
  | none => exact key 16
  | some k => exact key k

theorem block_item (n : Nat) (f : Src) :
    Block n f (item f n).1 ∧ (item f n).2 = if f.anonymous then n + 1 else n := by
  have fin : ∀ (s : Space) (o : Option Id → Out) (es : List String) (r : List Out × Option Id × Nat),
      r = pushExports s es f.id n → f.exports = es → f.space = some s → f.used = !es.isEmpty → (∀ x, f.segment x = []) →
      (∀ id, Core f id (o id)) →
      Block n f (r.1 ++ [o r.2.1]) ∧ r.2.2 = if f.anonymous then n + 1 else n := by
    rintro s o es r rfl h1 h2 h3 h4 h5
    cases es with
    | nil =>
      refine ⟨Block.unused f _ (by simpa using h3) (h5 _), ?_⟩
      simp [pushExports, Src.anonymous, h3]
    | cons e es =>
      have hu : f.used = true := by simpa using h3
      cases hid : f.id with
      | some x =>
        have := Block.used (n := n) f s x _ hu h2 (by simp [hid]) (h5 (some x))
        rw [h4, h1, List.append_nil] at this
        rw [pushExports_some]
        exact ⟨this, by simp [Src.anonymous, hid]⟩
      | none =>
        have := Block.used (n := n) f s _ _ hu h2 rfl (h5 _)
        rw [h4, h1, List.append_nil, hid] at this
        rw [pushExports_none]
        exact ⟨this, by simp [Src.anonymous, hid, hu]⟩
  have fin2 : ∀ (s : Space) (g : Id → List Out) (o : Option Id → Out) (es : List String) (r : List Out × Option Id × Nat),
      r = pushExports s es f.id n → f.exports = es → f.space = some s → f.used = true → (∀ x, f.segment x = g x) →
      (∀ id, Core f id (o id)) →
      Block n f (r.1 ++ g (fill r.2.1 r.2.2).1 ++ [o (some (fill r.2.1 r.2.2).1)]) ∧
        (fill r.2.1 r.2.2).2 = if f.anonymous then n + 1 else n := by
    rintro s g o es r rfl h1 h2 hu h4 h5
    cases hid : f.id with
    | some x =>
      have := Block.used (n := n) f s x _ hu h2 (by simp [hid]) (h5 (some x))
      rw [h4, h1] at this
      rw [pushExports_some]
      exact ⟨this, by simp [Src.anonymous, hid, fill]⟩
    | none =>
      have := Block.used (n := n) f s _ _ hu h2 rfl (h5 _)
      rw [h4, h1, hid] at this
      cases es with
      | nil => exact ⟨this, by simp [Src.anonymous, hid, hu, fill, pushExports]⟩
      | cons e es =>
        rw [pushExports_none]
        exact ⟨this, by simp [Src.anonymous, hid, hu, fill]⟩
  cases f with
  | other name f => exact ⟨.unused _ _ rfl (.other _ _), rfl⟩
  | func id es ty k =>
    cases k with
    | «import» e => exact fin .func (fun id => ⟨.import [⟨id, .func e ty⟩], "", none⟩) es _ rfl rfl rfl rfl (fun _ => rfl) fun _ => .funcImport ..
    | inline b => exact fin .func (fun id => ⟨.func id ty (some b), "", none⟩) es _ rfl rfl rfl rfl (fun _ => rfl) fun _ => .func ..
  | memory id es k =>
    cases k with
    | «import» => exact fin .memory (fun id => ⟨.import [⟨id, .memory⟩], "", none⟩) es _ rfl rfl rfl rfl (fun _ => rfl) fun _ => .memoryImport ..
    | normal => exact fin .memory (fun id => ⟨.memory id, "", none⟩) es _ rfl rfl rfl rfl (fun _ => rfl) fun _ => .memory ..
    | inline is64 len ps =>
      exact fin2 .memory (fun x => [⟨.data none (some (.id x, zero is64)), "", none⟩])
        (fun id => ⟨.memory id, "", some (pages len ps, some (pages len ps))⟩) es _ rfl rfl rfl rfl (fun _ => rfl)
        fun _ => .memoryData _ _ _ _ _ _ _ (pages_spec len ps)
  | table id es k =>
    cases k with
    | «import» h => exact fin .table (fun id => ⟨.import [⟨id, .table h⟩], "", none⟩) es _ rfl rfl rfl rfl (fun _ => rfl) fun _ => .tableImport ..
    | normal h i => exact fin .table (fun id => ⟨.table id h i, "", none⟩) es _ rfl rfl rfl rfl (fun _ => rfl) fun _ => .table ..
    | inline h is64 p =>
      refine fin2 .table (fun x => [⟨.elem none (some (some (.id x), zero is64)) p, "", none⟩])
        (fun id => ⟨.table id h none, "", some (payloadLen p, some (payloadLen p))⟩) es _ rfl rfl rfl rfl (fun _ => rfl)
        fun _ => ?_
      cases p with
      | indices is => exact .tableIndices ..
      | exprs t es => exact .tableExprs ..
  | global id es ty i =>
    cases i with
    | none => exact fin .global (fun id => ⟨.import [⟨id, .global ty⟩], "", none⟩) es _ rfl rfl rfl rfl (fun _ => rfl) fun _ => .globalImport ..
    | some i => exact fin .global (fun id => ⟨.global id ty (some i), "", none⟩) es _ rfl rfl rfl rfl (fun _ => rfl) fun _ => .global ..
  | tag id es ty imp =>
    cases imp with
    | true => exact fin .tag (fun id => ⟨.import [⟨id, .tag ty⟩], "", none⟩) es _ rfl rfl rfl rfl (fun _ => rfl) fun _ => .tagImport ..
    | false => exact fin .tag (fun id => ⟨.tag id ty, "", none⟩) es _ rfl rfl rfl rfl (fun _ => rfl) fun _ => .tag ..

theorem deinlined_run : ∀ (fs : List Src) (n : Nat), Deinlined n fs (run fs n).1
  | [], n => .nil n
  | f :: fs, n => by
    have h := block_item n f
    refine .cons n f _ fs _ h.1 ?_
    rw [h.2]
    exact deinlined_run fs _

end Verif.Deinline
