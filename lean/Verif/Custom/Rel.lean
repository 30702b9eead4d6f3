import Verif.Custom.LinkSpec
import Verif.Custom.Write
import Verif.Names.Lemmas
/-! Readers that return readers of their own: what can be read in the end is exactly a grammar. -/
namespace Verif.Custom
open Verif.Reader Verif.Leb Verif.Items Verif.Framing

/-- A reader accepts exactly the byte strings of `G`, up to a relation of what it returns and the
values of the grammar. -/
def ExactR (f : R α) (Q : α → β → Prop) (G : Grammar β) : Prop :=
  ∀ r, (∀ a r' x, f r = .ok (a, r') → Q a x →
      ∃ b t, r.rest = b ++ t ∧ G x b ∧ r' = r.advance b.length) ∧
    (∀ x b t, r.rest = b ++ t → G x b → ∃ a, f r = .ok (a, r.advance b.length) ∧ Q a x)

theorem Exact.toR {f : R α} {G : Grammar α} (h : Exact f G) : ExactR f Eq G := fun r =>
  ⟨fun a r' x h1 e => e ▸ (h r a r').1 h1, fun x b t e g => ⟨x, (h _ _ _).2 ⟨b, t, e, g, rfl⟩, rfl⟩⟩

theorem ExactR.congr {f : R α} {Q : α → β → Prop} {F G : Grammar β} (h : ExactR f Q F)
    (e : ∀ a b, F a b ↔ G a b) : ExactR f Q G := by
  have : F = G := by funext a b; exact propext (e a b)
  exact this ▸ h

theorem Exact.bindR {f : R α} {g : α → R γ} {Q : γ → β → Prop} {F : Grammar α} {G : α → Grammar β}
    (hf : Exact f F) (hg : ∀ a, ExactR (g a) Q (G a)) :
    ExactR (f >>= g) Q fun x b => ∃ a b1 b2, b = b1 ++ b2 ∧ F a b1 ∧ G a x b2 := by
  intro r
  constructor
  · intro c r' x h hq
    obtain ⟨a, r1, h1, h2⟩ := bind_ok.mp h
    obtain ⟨b1, t1, e1, g1, rfl⟩ := (hf _ _ _).1 h1
    obtain ⟨b2, t2, e2, g2, rfl⟩ := (hg a _).1 _ _ _ h2 hq
    refine ⟨b1 ++ b2, t2, ?_, ⟨a, b1, b2, rfl, g1, g2⟩, by simp⟩
    rw [Reader.rest_advance, e1, List.drop_left] at e2
    rw [e1, e2, List.append_assoc]
  · rintro x b t e ⟨a, b1, b2, rfl, g1, g2⟩
    have h1 := (hf r a _).2 ⟨b1, b2 ++ t, by rw [e, List.append_assoc], g1, rfl⟩
    obtain ⟨c, h2, hq⟩ := (hg a (r.advance b1.length)).2 x b2 t
      (by rw [Reader.rest_advance, e, List.append_assoc, List.drop_left]) g2
    exact ⟨c, bind_ok.2 ⟨_, _, h1, by rw [h2]; simp⟩, hq⟩

theorem ExactR.bind {f : R α} {g : α → R γ} {Q1 : α → δ → Prop} {Q : γ → β → Prop} {F : Grammar δ}
    {G : δ → Grammar β} (hf : ExactR f Q1 F) (ht : ∀ a, ∃ y, Q1 a y)
    (hg : ∀ a y, Q1 a y → ExactR (g a) Q (G y)) :
    ExactR (f >>= g) Q fun x b => ∃ y b1 b2, b = b1 ++ b2 ∧ F y b1 ∧ G y x b2 := by
  intro r
  constructor
  · intro c r' x h hq
    obtain ⟨a, r1, h1, h2⟩ := bind_ok.mp h
    obtain ⟨y, hy⟩ := ht a
    obtain ⟨b1, t1, e1, g1, rfl⟩ := (hf r).1 _ _ _ h1 hy
    obtain ⟨b2, t2, e2, g2, rfl⟩ := (hg a y hy _).1 _ _ _ h2 hq
    refine ⟨b1 ++ b2, t2, ?_, ⟨y, b1, b2, rfl, g1, g2⟩, by simp⟩
    rw [Reader.rest_advance, e1, List.drop_left] at e2
    rw [e1, e2, List.append_assoc]
  · rintro x b t e ⟨y, b1, b2, rfl, g1, g2⟩
    obtain ⟨a, h1, hy⟩ := (hf r).2 y b1 (b2 ++ t) (by rw [e, List.append_assoc]) g1
    obtain ⟨c, h2, hq⟩ := (hg a y hy (r.advance b1.length)).2 x b2 t
      (by rw [Reader.rest_advance, e, List.append_assoc, List.drop_left]) g2
    exact ⟨c, bind_ok.2 ⟨_, _, h1, by rw [h2]; simp⟩, hq⟩

theorem skip_of {f : R Unit} {b tail : List UInt8} {r : Reader} (hr : r.rest = b ++ tail)
    (h : f r = .ok ((), r.advance b.length)) :
    skip f r = .ok (⟨b, 0, r.originalPosition⟩, r.advance b.length) := by
  unfold Reader.skip
  rw [h]
  have : (r.buffer.drop r.position) = b ++ tail := hr
  simp [this]

theorem exactR_skip {f : R Unit} {G : Grammar Unit} (h : Exact f G) :
    ExactR (skip f) (fun rd p => rd.rest = p) fun p b => p = b ∧ G () b := by
  intro r
  constructor
  · intro rd r' p h1 hp
    have h2 : ∃ r2, f r = .ok ((), r2) := by
      unfold skip at h1
      cases hf : f r with
      | error e => simp [hf] at h1
      | ok q => exact ⟨q.2, rfl⟩
    obtain ⟨r2, h2⟩ := h2
    obtain ⟨b, t, e, g, rfl⟩ := (h _ _ _).1 h2
    rw [skip_of e h2] at h1
    cases h1
    refine ⟨b, t, e, ⟨?_, g⟩, rfl⟩
    rw [← hp]; rfl
  · rintro p b t e ⟨rfl, g⟩
    exact ⟨_, skip_of e ((h _ _ _).2 ⟨p, t, e, g, rfl⟩), rfl⟩

theorem rest_of (rd : Reader) : ∃ p, rd.rest = p := ⟨_, rfl⟩

theorem many_iff {f : R α} {Q : α → β → Prop} {G : Grammar β} (h : ExactR f Q G) :
    ∀ (xs : List β) (r r' : Reader),
      (∃ as, readMany f xs.length r = .ok (as, r') ∧ List.Forall₂ Q as xs) ↔
      ∃ bs t, r.rest = List.flatten bs ++ t ∧ List.Forall₂ G xs bs ∧ r' = r.advance bs.flatten.length
  | [], r, r' => by
    constructor
    · rintro ⟨as, h1, -⟩
      cases h1
      exact ⟨[], r.rest, rfl, .nil, rfl⟩
    · rintro ⟨bs, t, e, h1, rfl⟩
      cases h1
      exact ⟨[], rfl, .nil⟩
  | x :: xs, r, r' => by
    constructor
    · rintro ⟨as, h1, h2⟩
      obtain ⟨a, r1, h3, h4⟩ := bind_ok.mp h1
      obtain ⟨as', r2, h5, h6⟩ := bind_ok.mp h4
      cases h6
      cases h2 with
      | cons q qs =>
        obtain ⟨b, t, e, g, rfl⟩ := (h r).1 _ _ _ h3 q
        obtain ⟨bs, t', e', gs, rfl⟩ := (many_iff h xs _ _).1 ⟨as', h5, qs⟩
        rw [Reader.rest_advance, e, List.drop_left] at e'
        exact ⟨b :: bs, t', by simp [e, e'], .cons g gs, by simp⟩
    · rintro ⟨bs, t, e, h1, rfl⟩
      cases h1 with
      | @cons _ b _ bs g gs =>
        rw [List.flatten_cons, List.append_assoc] at e
        obtain ⟨a, h2, q⟩ := (h r).2 x b (bs.flatten ++ t) e g
        obtain ⟨as, h3, qs⟩ := (many_iff h xs (r.advance b.length) _).2
          ⟨bs, t, by rw [Reader.rest_advance, e, List.drop_left], gs, rfl⟩
        exact ⟨a :: as, bind_ok.2 ⟨_, _, h2, bind_ok.2 ⟨_, _, h3, by simp [pure_apply]⟩⟩, .cons q qs⟩

theorem eof_iff {r : Reader} : r.eof = true ↔ r.rest = [] := by
  simp only [Reader.eof, Reader.rest, Reader.maxPosition, List.drop_eq_nil_iff]
  simp

theorem forall₂_length {Q : α → β → Prop} {xs : List α} {ys : List β} (h : List.Forall₂ Q xs ys) :
    xs.length = ys.length := by
  induction h with
  | nil => rfl
  | cons _ _ ih => simp [ih]

theorem new_iff {r : Reader} {s : SectionLimited} : SectionLimited.new r = .ok s ↔
    ∃ b t, r.rest = b ++ t ∧ ULeb 32 b s.count.toNat ∧ s.reader = r.advance b.length := by
  unfold SectionLimited.new
  constructor
  · intro h
    cases h1 : readVarU32 r with
    | error e => simp [h1] at h
    | ok q =>
      obtain ⟨v, r'⟩ := q
      simp only [h1] at h
      cases h
      exact (Exact.u32 _ _ _).1 h1
  · rintro ⟨b, t, e, h, hr⟩
    have := (Exact.u32 r s.count s.reader).2 ⟨b, t, e, h, hr⟩
    rw [this]

/-- A section with its items. -/
theorem collect_iff {f : R α} {Q : α → β → Prop} {G : Grammar β} (h : ExactR f Q G) (r : Reader)
    (xs : List β) :
    (∃ s as, SectionLimited.new r = .ok s ∧ s.collect f = .ok as ∧ List.Forall₂ Q as xs) ↔
    Vec G xs r.rest := by
  constructor
  · rintro ⟨s, as, h1, h2, h3⟩
    obtain ⟨b, t, e, hb, hr⟩ := new_iff.1 h1
    obtain ⟨r', h4, h5⟩ := collectFrom_ok.1 h2
    have hl : xs.length = s.count.toNat := by
      rw [← forall₂_length h3, Names.readMany_length h4]
    rw [← hl] at h4 hb
    obtain ⟨bs, t', e', gs, rfl⟩ := (many_iff h xs _ _).1 ⟨as, h4, h3⟩
    have h6 := eof_iff.1 h5
    rw [Reader.rest_advance, e', List.drop_left] at h6
    subst h6
    rw [hr, Reader.rest_advance, e, List.drop_left, List.append_nil] at e'
    exact ⟨b, bs, by rw [e, e'], hb, gs⟩
  · rintro ⟨n, bs, e, hn, gs⟩
    have hl := hn.lt
    have hs := toNat_ofNat32 hl
    refine ⟨⟨r.advance n.length, BitVec.ofNat 32 xs.length⟩, ?_⟩
    obtain ⟨as, h1, h2⟩ := (many_iff h xs (r.advance n.length) _).2
      ⟨bs, [], by rw [Reader.rest_advance, e, List.drop_left, List.append_nil], gs, rfl⟩
    refine ⟨as, new_iff.2 ⟨n, bs.flatten, e, by rwa [hs], rfl⟩, ?_, h2⟩
    refine collectFrom_ok.2 ⟨_, by rw [hs]; exact h1, eof_iff.2 ?_⟩
    simp [e]

theorem forall₂_eq {xs ys : List α} : List.Forall₂ Eq xs ys ↔ xs = ys := List.forall₂_eq_eq_eq ▸ Iff.rfl

theorem collect_eq {f : R α} {G : Grammar α} (h : Exact f G) (r : Reader) (xs : List α) :
    (∃ s, SectionLimited.new r = .ok s ∧ s.collect f = .ok xs) ↔ Vec G xs r.rest := by
  rw [← collect_iff h.toR]
  constructor
  · rintro ⟨s, h1, h2⟩
    exact ⟨s, xs, h1, h2, forall₂_eq.2 rfl⟩
  · rintro ⟨s, as, h1, h2, h3⟩
    exact ⟨s, h1, forall₂_eq.1 h3 ▸ h2⟩

theorem exact_skipItems {f : R α} {sk : R Unit} {G : Grammar α} (h : Exact f G)
    (hs : sk = (do let _ ← f; pure ())) :
    Exact (skipItems sk) fun _ b => ∃ xs, Vec G xs b := by
  have h1 : Exact sk fun _ b => ∃ x, G x b := by
    rw [hs]
    refine (h.bind fun a => .pure _).congr fun u b => ?_
    constructor
    · rintro ⟨a, b1, b2, rfl, h1, -, rfl⟩
      exact ⟨a, by rwa [List.append_nil]⟩
    · rintro ⟨a, h1⟩
      exact ⟨a, b, [], by simp, h1, rfl, rfl⟩
  have h2 := exact_vec h1
  intro r u r'
  have e : skipItems sk = (do let _ ← readVec sk; pure ()) := by
    funext r
    unfold skipItems readVec
    simp only [bind_apply]
    cases readVarU32 r <;> rfl
  rw [e]
  have h3 : Exact (do let _ ← readVec sk; pure ()) fun _ b => ∃ xs, Vec G xs b := ?_
  · exact h3 r u r'
  refine (h2.bind fun a => .pure ()).congr fun u b => ?_
  constructor
  · rintro ⟨us, b1, b2, rfl, ⟨n, bs, rfl, hn, hf⟩, -, rfl⟩
    have : ∃ xs : List α, xs.length = us.length ∧ List.Forall₂ G xs bs := by
      clear hn h2 e
      induction hf with
      | nil => exact ⟨[], rfl, .nil⟩
      | cons hx _ ih =>
        obtain ⟨x, hx⟩ := hx
        obtain ⟨xs, hl, ih⟩ := ih
        exact ⟨x :: xs, by simp [hl], .cons hx ih⟩
    obtain ⟨xs, hl, hx⟩ := this
    exact ⟨xs, n, bs, by simp, hl ▸ hn, hx⟩
  · rintro ⟨xs, n, bs, rfl, hn, hf⟩
    refine ⟨xs.map fun _ => (), n ++ bs.flatten, [], by simp, ⟨n, bs, rfl, by simpa using hn, ?_⟩, rfl, rfl⟩
    clear hn h2 e
    induction hf with
    | nil => exact .nil
    | cons hx _ ih => exact .cons ⟨_, hx⟩ ih

/-- `skip` over the items and a new reader for them. -/
theorem exactR_nested {f : R α} {sk : R Unit} {G : Grammar α} (h : Exact f G)
    (hs : sk = (do let _ ← f; pure ())) {k : SectionLimited → γ} {Q : γ → β → Prop} {P : β → Prop}
    {l : β → List α} (hq : ∀ s x, Q (k s) x ↔ P x ∧ s.collect f = .ok (l x)) :
    ExactR (do let rd ← skip (skipItems sk); let s ← limited rd; pure (k s)) Q
      fun x b => P x ∧ Vec G (l x) b := by
  have hsk := exactR_skip (exact_skipItems h hs)
  intro r
  constructor
  · intro c r' x h1 hc
    obtain ⟨rd, r1, h2, h3⟩ := bind_ok.mp h1
    obtain ⟨b, t, e, ⟨hb, -⟩, rfl⟩ := (hsk r).1 _ _ _ h2 rfl
    obtain ⟨s, r2, h4, h5⟩ := bind_ok.mp h3
    cases h5
    have h6 : SectionLimited.new rd = .ok s ∧ r' = r.advance b.length := by
      unfold limited at h4
      cases hn : SectionLimited.new rd with
      | error e => simp [hn] at h4
      | ok s' => simp only [hn] at h4; cases h4; exact ⟨rfl, rfl⟩
    obtain ⟨hp, hl⟩ := (hq s x).1 hc
    refine ⟨b, t, e, ⟨hp, ?_⟩, h6.2⟩
    rw [← hb]
    exact (collect_eq h rd (l x)).1 ⟨s, h6.1, hl⟩
  · rintro x b t e ⟨hp, hv⟩
    obtain ⟨rd, h1, h2⟩ := (hsk r).2 b b t e ⟨rfl, l x, hv⟩
    obtain ⟨s, h3, h4⟩ := (collect_eq h rd (l x)).2 (by rw [h2]; exact hv)
    refine ⟨k s, bind_ok.2 ⟨_, _, h1, bind_ok.2 ⟨s, r.advance b.length, ?_, rfl⟩⟩, (hq s x).2 ⟨hp, h4⟩⟩
    unfold limited
    rw [h3]

/-! ### Subsections -/

theorem exactR_reader : ExactR readReader (fun rd p => rd.rest = p)
    fun p b => ∃ n, ULeb 32 n p.length ∧ b = n ++ p := by
  unfold readReader
  refine (Exact.u32.bindR fun n => exactR_skip
    (((Exact.readBytes n.toNat).bind fun _ => .pure ()).congr (G := fun _ b => b.length = n.toNat)
      fun u b => ?_)).congr fun p b => ?_
  · constructor
    · rintro ⟨a, b1, b2, rfl, ⟨rfl, h⟩, -, rfl⟩; simpa using h
    · intro h; exact ⟨b, b, [], by simp, ⟨rfl, h⟩, rfl, rfl⟩
  · constructor
    · rintro ⟨n, b1, b2, rfl, h1, rfl, h2⟩
      exact ⟨b1, h2 ▸ h1, rfl⟩
    · rintro ⟨n, h, rfl⟩
      have := toNat_ofNat32 h.lt
      exact ⟨BitVec.ofNat 32 p.length, n, p, rfl, by rwa [this], rfl, by rw [this]⟩

theorem exact_u7 : Exact readU7 fun v b => v < 128 ∧ b = [v] := by
  unfold readU7
  refine (Exact.readU8.bind fun x => Exact.ite (Exact.readPos fun _ => .fail _ _) (.pure _)).congr
    fun v b => ?_
  have key : ∀ x : UInt8, ¬ (x &&& 0x80 ≠ 0) ↔ x < 128 := by
    intro x
    have h : ∀ y : Fin 256, ¬ (UInt8.ofNat y.val &&& 0x80 ≠ 0) ↔ UInt8.ofNat y.val < 128 := by
      decide +kernel
    have := h ⟨x.toNat, x.toNat_lt⟩
    simpa using this
  constructor
  · rintro ⟨x, b1, b2, rfl, rfl, ⟨-, h⟩ | ⟨h, rfl, rfl⟩⟩
    · exact h.elim
    · exact ⟨(key _).1 h, by simp⟩
  · rintro ⟨h, rfl⟩
    exact ⟨v, [v], [], rfl, rfl, .inr ⟨(key _).2 h, rfl, rfl⟩⟩

theorem exactR_sub {from_ : UInt8 → Reader → Except Err α} {Q : α → β → Prop}
    {P : UInt8 → Grammar β}
    (h : ∀ id rd x, (∃ a, from_ id rd = .ok a ∧ Q a x) ↔ P id x rd.rest) :
    ExactR (readSub from_) Q (InSub P) := by
  unfold readSub
  refine (exact_u7.bindR fun id => exactR_reader.bind rest_of (G := fun p x b => P id x p ∧ b = [])
    fun rd p hp => ?_).congr fun x b => ?_
  · intro r
    constructor
    · intro a r' x h1 hq
      cases hf : from_ id rd with
      | error e => simp [hf, Except.map] at h1
      | ok a' =>
        simp only [hf, Except.map] at h1
        cases h1
        exact ⟨[], r.rest, rfl, ⟨hp ▸ (h id rd x).1 ⟨_, hf, hq⟩, rfl⟩, rfl⟩
    · rintro x b t e ⟨hx, rfl⟩
      obtain ⟨a, h1, h2⟩ := (h id rd x).2 (hp ▸ hx)
      exact ⟨a, by simp [h1, Except.map], h2⟩
  · constructor
    · rintro ⟨id, b1, b2, rfl, ⟨h1, rfl⟩, p, b3, b4, rfl, ⟨n, h2, rfl⟩, h3, rfl⟩
      rw [List.append_nil]
      exact InSub.mk (n := n) (p := p) h1 h2 h3
    · rintro ⟨h1, h2, h3⟩
      rename_i id n p
      exact ⟨id, [id], n ++ p, rfl, ⟨h1, rfl⟩, p, n ++ p, [], by simp, ⟨n, h2, rfl⟩, h3, rfl⟩

theorem insub_ne {P : UInt8 → Grammar α} {x : α} {b : List UInt8} (h : InSub P x b) : b ≠ [] := by
  cases h; simp

theorem subsFrom_iff {from_ : UInt8 → Reader → Except Err α} {Q : α → β → Prop}
    {P : UInt8 → Grammar β}
    (h : ∀ id rd x, (∃ a, from_ id rd = .ok a ∧ Q a x) ↔ P id x rd.rest) : ∀ (n : Nat) (r : Reader)
    (xs : List β), r.rest.length ≤ n →
    ((∃ as, subsFrom from_ n r = .ok as ∧ List.Forall₂ Q as xs) ↔ Seq (InSub P) xs r.rest)
  | 0, r, xs, hn => by
    have hr : r.rest = [] := List.length_eq_zero_iff.1 (by omega)
    constructor
    · rintro ⟨as, h1, h2⟩
      cases h1
      cases h2
      exact ⟨[], hr, .nil⟩
    · rintro ⟨bs, e, h1⟩
      cases h1 with
      | nil => exact ⟨[], rfl, .nil⟩
      | cons g _ =>
        rw [hr] at e
        have := insub_ne g
        simp at e
        exact absurd e.1 this
  | n + 1, r, xs, hn => by
    unfold subsFrom
    by_cases hr : r.rest = []
    · rw [if_pos (eof_iff.2 hr)]
      constructor
      · rintro ⟨as, h1, h2⟩
        cases h1
        cases h2
        exact ⟨[], hr, .nil⟩
      · rintro ⟨bs, e, h1⟩
        cases h1 with
        | nil => exact ⟨[], rfl, .nil⟩
        | cons g _ =>
          rw [hr] at e
          have := insub_ne g
          simp at e
          exact absurd e.1 this
    · rw [if_neg (fun e => hr (eof_iff.1 e))]
      have hs := exactR_sub h
      constructor
      · rintro ⟨as, h1, h2⟩
        cases hf : readSub from_ r with
        | error e => simp [hf] at h1
        | ok q =>
          obtain ⟨a, r'⟩ := q
          simp only [hf] at h1
          cases hg : subsFrom from_ n r' with
          | error e => simp [hg] at h1
          | ok as' =>
            simp only [hg] at h1
            cases h1
            cases h2 with
            | cons q qs =>
              obtain ⟨b, t, e, g, rfl⟩ := (hs r).1 _ _ _ hf q
              have hb := List.length_pos_iff.2 (insub_ne g)
              have hl : (r.advance b.length).rest.length ≤ n := by
                rw [Reader.rest_advance, List.length_drop]; omega
              obtain ⟨bs, e', gs⟩ := (subsFrom_iff h n _ _ hl).1 ⟨_, hg, qs⟩
              rw [Reader.rest_advance, e, List.drop_left] at e'
              exact ⟨b :: bs, by simp [e, e'], .cons g gs⟩
      · rintro ⟨bs, e, h1⟩
        cases h1 with
        | nil => exact absurd e hr
        | @cons x b xs bs g gs =>
          obtain ⟨a, h2, q⟩ := (hs r).2 x b bs.flatten e g
          have hb := List.length_pos_iff.2 (insub_ne g)
          have hl : (r.advance b.length).rest.length ≤ n := by
            rw [Reader.rest_advance, List.length_drop]; omega
          obtain ⟨as, h3, qs⟩ := (subsFrom_iff h n (r.advance b.length) xs hl).2
            ⟨bs, by rw [Reader.rest_advance, e, List.flatten_cons, List.drop_left], gs⟩
          exact ⟨a :: as, by rw [h2]; simp [h3], .cons q qs⟩

theorem subs_iff {from_ : UInt8 → Reader → Except Err α} {Q : α → β → Prop}
    {P : UInt8 → Grammar β}
    (h : ∀ id rd x, (∃ a, from_ id rd = .ok a ∧ Q a x) ↔ P id x rd.rest) (r : Reader)
    (xs : List β) :
    (∃ as, subs from_ r = .ok as ∧ List.Forall₂ Q as xs) ↔ Seq (InSub P) xs r.rest :=
  subsFrom_iff h _ r xs (by rw [Reader.bytesRemaining_eq]; exact Nat.le_refl _)

end Verif.Custom
