import Verif.Deinline.Lemmas
import Verif.Resolve.Lemmas
import Verif.Resolve.KnownExpand

namespace Verif.Deinline

open Verif.Expand Verif.Resolve

/-! ## The spec has one solution -/

theorem core_unique {f : Src} {id : Option Id} {a b : Out} (h1 : Core f id a) (h2 : Core f id b) : a = b := by
  cases h1 <;> cases h2 <;> try rfl
  rename_i p h1 q h2
  have := Nat.le_antisymm (h1.2 _ h2.1) (h2.2 _ h1.1)
  subst this
  rfl

theorem block_unique {n : Nat} {f : Src} {a b : List Out} (h1 : Block n f a) (h2 : Block n f b) : a = b := by
  cases h1 with
  | unused o hu hc =>
    cases h2 with
    | unused o' _ hc' => rw [core_unique hc hc']
    | used s x o' hu' => rw [hu] at hu'; cases hu'
  | used s x o hu hs hx hc =>
    cases h2 with
    | unused o' hu' _ => rw [hu] at hu'; cases hu'
    | used s' x' o' _ hs' hx' hc' =>
      subst hx; subst hx'
      rw [hs] at hs'
      cases hs'
      rw [core_unique hc hc']

theorem deinlined_unique' {n : Nat} {fs : List Src} {a b : List Out} (h1 : Deinlined n fs a) (h2 : Deinlined n fs b) :
    a = b := by
  induction h1 generalizing b with
  | nil n => cases h2; rfl
  | cons n f c fs os hb _ ih =>
    cases h2 with
    | cons _ _ c' _ os' hb' hd' => rw [block_unique hb hb', ih hd']

theorem run_counter : ∀ (fs : List Src) (n : Nat), (run fs n).2 = n + (fs.filter Src.anonymous).length
  | [], n => rfl
  | f :: fs, n => by
    simp only [run, run_counter fs, (block_item n f).2, List.filter_cons]
    split <;> simp_all <;> omega

/-! ## What is declared -/

/-- What some output declares. -/
abbrev outDecls (os : List Out) : List Decl := (os.map (·.field)).flatMap decls

theorem outDecls_append (a b : List Out) : outDecls (a ++ b) = outDecls a ++ outDecls b := by simp [outDecls]

theorem exports_decls (s : Space) (x : Id) (es : List String) :
    outDecls (es.map (fun e => { field := .export s (.id x), name := e })) = [] := by
  induction es with
  | nil => rfl
  | cons e es ih => simpa [outDecls, decls] using ih

theorem segment_space {s : Space} (hs : IsItem s) (f : Src) (x : Id) : space s (outDecls (f.segment x)) = [] := by
  unfold Src.segment
  rcases hs with rfl | rfl | rfl | rfl | rfl <;> split <;> rfl

theorem core_space {s : Space} (hs : IsItem s) {f : Src} {id : Option Id} {o : Out} (h : Core f id o) :
    space s (decls o.field) = match f with
      | .other _ g => space s (decls g)
      | f => if f.space = some s then [id] else [] := by
  rcases hs with rfl | rfl | rfl | rfl | rfl <;> cases h <;> rfl

theorem other_unused (name : String) (f : Field) : (Src.other name f).used = false := rfl

theorem block_space {s : Space} (hs : IsItem s) {n : Nat} {f : Src} {b : List Out} (h : Block n f b) :
    space s (outDecls b) = f.names s ∨
      (f.anonymous = true ∧ f.names s = [none] ∧ space s (outDecls b) = [some ⟨"gensym", n + 1⟩]) := by
  cases h with
  | unused o hu hc =>
    left
    have := core_space hs hc
    simp only [outDecls, List.map_cons, List.map_nil, List.flatMap_cons, List.flatMap_nil, List.append_nil]
    rw [this]
    cases f <;> rfl
  | used s' x o hu hsp hx hc =>
    have h1 := core_space hs hc
    have h2 : space s (outDecls [o]) = space s (decls o.field) := by
      simp [outDecls]
    simp only [outDecls_append, space_append, exports_decls, segment_space hs, h2, h1]
    simp only [space, List.filterMap_nil, List.nil_append]
    cases hid : f.id with
    | some y =>
      left
      rw [hid] at hx
      simp only [Option.getD_some] at hx
      subst hx
      cases f <;> simp_all [Src.names, Src.id, Src.space]
    | none =>
      rw [hid] at hx
      simp only [Option.getD_none] at hx
      subst hx
      by_cases hss : f.space = some s
      · right
        refine ⟨by simp [Src.anonymous, hid, hu], ?_, ?_⟩
        · cases f <;> simp_all [Src.names, Src.id, Src.space]
        · cases f <;> simp_all [Src.space]
      · left
        cases f <;> simp_all [Src.names, Src.space]

theorem block_length {s : Space} (hs : IsItem s) {n : Nat} {f : Src} {b : List Out} (h : Block n f b) :
    (space s (outDecls b)).length = (f.names s).length := by
  rcases block_space hs h with h | ⟨-, h1, h2⟩
  · rw [h]
  · rw [h1, h2]; rfl

theorem deinlined_length {s : Space} (hs : IsItem s) {n : Nat} {fs : List Src} {os : List Out} (h : Deinlined n fs os) :
    (space s (outDecls os)).length = (fs.flatMap (Src.names s)).length := by
  induction h with
  | nil n => rfl
  | cons n f b fs os hb _ ih =>
    simp [outDecls_append, space_append, block_length hs hb, ih]

theorem deinlined_split {n : Nat} : ∀ {l : List Src} {f : Src} {r : List Src} {os : List Out}, Deinlined n (l ++ f :: r) os →
    ∃ os1 b os2 m, os = os1 ++ b ++ os2 ∧ Deinlined n l os1 ∧ Block m f b := by
  intro l
  induction l generalizing n with
  | nil =>
    intro f r os h
    cases h with
    | cons _ _ b _ os' hb _ => exact ⟨[], b, os', n, by simp, .nil n, hb⟩
  | cons g l ih =>
    intro f r os h
    cases h with
    | cons _ _ b _ os' hb hd =>
      obtain ⟨os1, c, os2, m, rfl, h1, h2⟩ := ih hd
      exact ⟨b ++ os1, c, os2, m, by simp, .cons _ _ _ _ _ hb h1, h2⟩

/-! ## Names stay unique -/

theorem uniq_cons (a : Option Id) (l : List (Option Id)) :
    Uniq (a :: l) ↔ (∀ x, a = some x → some x ∉ l) ∧ Uniq l := by
  constructor
  · intro h
    refine ⟨?_, fun n m x hn hm => by simpa using h (n + 1) (m + 1) x (by simpa using hn) (by simpa using hm)⟩
    rintro x rfl hm
    obtain ⟨n, hn⟩ := List.mem_iff_getElem?.1 hm
    have := h 0 (n + 1) x (by simp) (by simpa using hn)
    omega
  · rintro ⟨h1, h2⟩ n m x hn hm
    cases n with
    | zero =>
      cases m with
      | zero => rfl
      | succ m =>
        simp only [List.getElem?_cons_zero, Option.some.injEq, List.getElem?_cons_succ] at hn hm
        exact absurd (List.mem_of_getElem? hm) (h1 x hn)
    | succ n =>
      cases m with
      | zero =>
        simp only [List.getElem?_cons_zero, Option.some.injEq, List.getElem?_cons_succ] at hn hm
        exact absurd (List.mem_of_getElem? hn) (h1 x hm)
      | succ m =>
        simp only [List.getElem?_cons_succ] at hn hm
        rw [h2 n m x hn hm]

theorem uniq_append (a b : List (Option Id)) :
    Uniq (a ++ b) ↔ Uniq a ∧ Uniq b ∧ ∀ x, some x ∈ a → some x ∉ b := by
  induction a with
  | nil =>
    have : Uniq [] := by intro n m x hn; simp at hn
    simp [this]
  | cons c a ih =>
    simp only [List.cons_append, uniq_cons, ih, List.mem_append, List.mem_cons]
    grind

theorem deinlined_fresh {s : Space} (hs : IsItem s) {n : Nat} {fs : List Src} {os : List Out} (h : Deinlined n fs os)
    (hg : ∀ f ∈ fs, ∀ x, some x ∈ f.names s → x.gen = 0) (hu : Uniq (fs.flatMap (Src.names s))) :
    Uniq (space s (outDecls os)) ∧
      ∀ x, some x ∈ space s (outDecls os) → (x.gen = 0 ∧ some x ∈ fs.flatMap (Src.names s)) ∨ n < x.gen := by
  induction h with
  | nil n => exact ⟨hu, by simp [outDecls, space]⟩
  | cons n f b fs os hb hd ih =>
    rw [List.flatMap_cons, uniq_append] at hu
    obtain ⟨ih1, ih2⟩ := ih (fun f hf => hg f (by simp [hf])) hu.2.1
    have hg0 := hg f (by simp)
    rw [outDecls_append, space_append, uniq_append]
    rcases block_space hs hb with h1 | ⟨ha, h1, h2⟩
    · rw [h1]
      refine ⟨⟨hu.1, ih1, fun x hx hx' => ?_⟩, fun x hx => ?_⟩
      · have h0 := hg0 x hx
        rcases ih2 x hx' with ⟨-, h⟩ | h
        · exact hu.2.2 x hx h
        · omega
      · rcases List.mem_append.1 hx with hx | hx
        · exact .inl ⟨hg0 x hx, by simp [hx]⟩
        · rcases ih2 x hx with ⟨h, h'⟩ | h
          · exact .inl ⟨h, by rw [List.flatMap_cons]; exact List.mem_append_right _ h'⟩
          · right; split at h <;> omega
    · rw [h2]
      rw [ha] at ih2
      simp only [if_true] at ih2
      refine ⟨⟨?_, ih1, fun x hx hx' => ?_⟩, fun x hx => ?_⟩
      · rw [uniq_cons]; exact ⟨by simp, by intro n m x hn; simp at hn⟩
      · obtain rfl : x = ⟨"gensym", n + 1⟩ := by simpa using hx
        rcases ih2 _ hx' with ⟨h, -⟩ | h
        · simp at h
        · simp at h
      · rcases List.mem_append.1 hx with hx | hx
        · obtain rfl : x = ⟨"gensym", n + 1⟩ := by simpa using hx
          right; simp
        · rcases ih2 x hx with ⟨h, h'⟩ | h
          · exact .inl ⟨h, by rw [List.flatMap_cons]; exact List.mem_append_right _ h'⟩
          · right; omega

/-! ## References -/

section
variable {ds ds' : List Decl} (g : Grows ds ds' [])
include g

theorem m_use {e : Bool} {u : TypeUse} (hk : kUse e ds u) : kUse e ds' u :=
  ⟨hk.1, fun i h => g_index g (hk.2.1 i h), fun f h => g_func g (hk.2.2 f h)⟩

theorem m_instr {e : Bool} {a : Instr} (hk : kInstr e ds a) : kInstr e ds' a := by
  cases a with
  | block op l u => exact m_use g hk
  | tryTable l u cs => exact ⟨m_use g hk.1, fun c hc => ⟨fun i hi => g_index g ((hk.2 c hc).1 i hi), (hk.2 c hc).2⟩⟩
  | else_ l => trivial
  | end_ l => trivial
  | delegate i => exact hk
  | callIndirect op t u => exact ⟨g_index g hk.1, m_use g hk.2⟩
  | plain op rs => exact fun r hr => g_ref g (hk r hr)

theorem m_expr {e : Bool} {a : List Instr} (hk : kExpr e ds a) : kExpr e ds' a := fun i hi => m_instr g (hk i hi)

theorem m_sig {e : Bool} {s : ItemSig} (hk : kSig e ds s) : kSig e ds' s := by
  obtain ⟨id, k⟩ := s
  cases k with
  | func ex u => exact m_use g hk
  | tag u => exact m_use g hk
  | global t => exact g_val g (v := t) hk
  | table h => exact g_heap g (h := h) hk
  | memory => trivial

theorem m_payload {e : Bool} {p : Payload} (hk : kPayload e ds p) : kPayload e ds' p := by
  cases p with
  | indices is => exact fun i h => g_index g (hk i h)
  | exprs t es => exact ⟨fun i h => m_expr g (hk.1 i h), g_heap g hk.2⟩

theorem m_field {e : Bool} {f : Field} (hk : kField e ds f) : kField e ds' f := by
  cases f with
  | type t => exact g_typeDef g hk
  | recGroup ts => exact fun t ht => g_typeDef g (hk t ht)
  | «import» ss => exact fun s hs => m_sig g (hk s hs)
  | func id u b => exact ⟨m_use g hk.1, fun p hp => ⟨fun l hl => g_val g ((hk.2 p hp).1 l hl), m_expr g (hk.2 p hp).2⟩⟩
  | table id h i => exact ⟨g_heap g hk.1, fun is h => m_expr g (hk.2 is h)⟩
  | memory id => trivial
  | global id t i => exact ⟨g_val g hk.1, fun is h => m_expr g (hk.2 is h)⟩
  | tag id u => exact m_use g hk
  | «export» s i => exact g_index g hk
  | start i => exact g_index g (s := .func) hk
  | elem id a p =>
    exact ⟨fun q hq => ⟨fun i hi => g_index g ((hk.1 q hq).1 i hi), m_expr g (hk.1 q hq).2⟩, m_payload g hk.2⟩
  | data id a => exact fun q hq => ⟨g_index g (hk q hq).1, m_expr g (hk q hq).2⟩
  | custom => trivial

end

theorem core_written {f : Src} {id : Option Id} {o : Out} (h : Core f id o) (hw : f.written) : kField false [] o.field := by
  cases h
  case other => exact hw
  case funcImport => intro s hs; obtain rfl := List.mem_singleton.1 hs; exact hw
  case func => exact ⟨hw.1, fun p hp => by obtain rfl := Option.mem_some_iff.1 hp; exact hw.2⟩
  case memoryImport => intro s hs; obtain rfl := List.mem_singleton.1 hs; trivial
  case memory => trivial
  case memoryData => trivial
  case tableImport => intro s hs; obtain rfl := List.mem_singleton.1 hs; exact hw
  case table => exact hw
  case tableIndices => exact ⟨hw.1, by simp⟩
  case tableExprs => exact ⟨hw.1, by simp⟩
  case globalImport => intro s hs; obtain rfl := List.mem_singleton.1 hs; exact hw.1
  case global => exact hw
  case tagImport => intro s hs; obtain rfl := List.mem_singleton.1 hs; exact hw
  case tag => exact hw

theorem block_known {n : Nat} {f : Src} {b : List Out} (h : Block n f b) (hw : f.written) {ds : List Decl}
    (hd : ∀ s x, some x ∈ space s (outDecls b) → some x ∈ space s ds) : ∀ o ∈ b, kField false ds o.field := by
  have g : Grows [] ds [] := ⟨by intro s x hx; simp [space] at hx, by simp⟩
  cases h with
  | unused o hu hc =>
    intro o' ho'
    obtain rfl := List.mem_singleton.1 ho'
    exact m_field g (core_written hc hw)
  | used s x o hu hs hx hc =>
    have hitem : IsItem s := by
      cases f <;> simp [Src.space] at hs <;> subst hs <;> simp [IsItem]
    have hk : some x ∈ space s ds := by
      apply hd
      have h2 : space s (outDecls [o]) = space s (decls o.field) := by simp [outDecls]
      simp only [outDecls_append, space_append, h2, core_space hitem hc]
      cases f <;> simp_all [Src.space]
    intro o' ho'
    rcases List.mem_append.1 ho' with ho' | ho'
    · rcases List.mem_append.1 ho' with ho' | ho'
      · obtain ⟨e, -, rfl⟩ := List.mem_map.1 ho'
        intro y hy
        obtain rfl : x = y := by simpa using hy
        exact .inr hk
      · cases f with
        | memory i es k =>
          cases k with
          | inline is64 len ps =>
            obtain rfl := List.mem_singleton.1 ho'
            cases hs
            intro q hq
            obtain rfl := Option.mem_some_iff.1 hq
            refine ⟨fun y hy => ?_, fun i hi => ?_⟩
            · obtain rfl : x = y := by simpa using hy
              exact .inr hk
            · obtain rfl := List.mem_singleton.1 hi
              intro r hr; simp at hr
          | _ => simp [Src.segment] at ho'
        | table i es k =>
          cases k with
          | inline h is64 p =>
            obtain rfl := List.mem_singleton.1 ho'
            cases hs
            refine ⟨fun q hq => ?_, m_payload g hw.2⟩
            obtain rfl := Option.mem_some_iff.1 hq
            refine ⟨fun i hi y hy => ?_, fun i hi => ?_⟩
            · subst hy
              obtain rfl : x = y := by simpa using hi
              exact .inr hk
            · obtain rfl := List.mem_singleton.1 hi
              intro r hr; simp at hr
          | _ => simp [Src.segment] at ho'
        | _ => simp [Src.segment] at ho'
    · obtain rfl := List.mem_singleton.1 ho'
      exact m_field g (core_written hc hw)

theorem deinlined_known {n : Nat} {fs : List Src} {os : List Out} (h : Deinlined n fs os) (hw : ∀ f ∈ fs, f.written)
    {ds : List Decl} (hd : ∀ s x, some x ∈ space s (outDecls os) → some x ∈ space s ds) :
    ∀ o ∈ os, kField false ds o.field := by
  induction h with
  | nil n => simp
  | cons n f b fs os hb _ ih =>
    simp only [outDecls_append, space_append] at hd
    intro o ho
    rcases List.mem_append.1 ho with ho | ho
    · exact block_known hb (hw f (by simp)) (fun s x hx => hd s x (by simp [hx])) o ho
    · exact ih (fun f hf => hw f (by simp [hf])) (fun s x hx => hd s x (by simp [hx])) o ho

end Verif.Deinline
