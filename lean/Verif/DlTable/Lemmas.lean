import Verif.DlTable.Spec
/-! What is written to the table. -/
namespace Verif.DlTable
open Spec

theorem Spec.HasBytes.mono {m base p x} (h : HasBytes m base p x) (t : List UInt8) :
    HasBytes (m ++ t) base p x := by
  obtain ⟨a, c, rfl, rfl⟩ := h
  exact ⟨a, c ++ t, by simp, rfl⟩

theorem hasBytes_end (b : List UInt8) (base : Nat) (x : List UInt8) :
    HasBytes (b ++ x) base (base + b.length) x := ⟨b, [], by simp, rfl⟩

/-- `m` goes on as `m'`. -/
def Ext (m m' : List UInt8) : Prop := ∃ t, m' = m ++ t

theorem Ext.refl (m : List UInt8) : Ext m m := ⟨[], by simp⟩

theorem Ext.app (m t : List UInt8) : Ext m (m ++ t) := ⟨t, rfl⟩

theorem Ext.trans {a b c : List UInt8} (h : Ext a b) (h' : Ext b c) : Ext a c := by
  obtain ⟨t, rfl⟩ := h
  obtain ⟨u, rfl⟩ := h'
  exact ⟨t ++ u, by simp⟩

theorem Spec.HasBytes.ext {m m' base p x} (h : HasBytes m base p x) (he : Ext m m') :
    HasBytes m' base p x := by
  obtain ⟨t, rfl⟩ := he
  exact h.mono t

theorem Ext.le {m m' : List UInt8} (h : Ext m m') : m.length ≤ m'.length := by
  obtain ⟨t, rfl⟩ := h
  simp

theorem le32_length (v : Nat) : (le32 v).length = 4 := rfl

theorem word_of {m base p v} (h : HasBytes m base p (le32 v)) (hv : v < 2 ^ 32) :
    Word m base p v := by
  refine ⟨_, _, _, _, h, ?_⟩
  simp only [UInt8.toNat_ofNat']
  omega

theorem hasBytes_bound {m base p x} (h : HasBytes m base p x) :
    base ≤ p ∧ p + x.length ≤ base + m.length := by
  obtain ⟨a, c, rfl, rfl⟩ := h
  simp
  omega

theorem hasBytes_det {m base p x y} (h : HasBytes m base p x) (h' : HasBytes m base p y)
    (hl : x.length = y.length) : x = y := by
  obtain ⟨a, c, h1, h2⟩ := h
  obtain ⟨a', c', h3, h4⟩ := h'
  rw [h1, List.append_assoc, List.append_assoc] at h3
  obtain ⟨-, h5⟩ := List.append_inj h3 (by omega)
  exact (List.append_inj h5 hl).1

theorem word_det {m base p v w} (h : Word m base p v) (h' : Word m base p w) : v = w := by
  obtain ⟨_, _, _, _, h1, h2⟩ := h
  obtain ⟨_, _, _, _, h3, h4⟩ := h'
  have := hasBytes_det h1 h3 rfl
  cases this
  rw [h2, h4]

variable {tableBase memoryBase : Nat} {init : Name → Name → Nat} {le : Name → Name → Bool}

/-- A symbol whose name is in memory. -/
def GoodSym (tableBase memoryBase : Nat) (F : List (Name × Name)) (lib : Name) (m : List UInt8)
    (s : Sym) : Prop :=
  HasBytes m memoryBase s.nameAddress s.export_.name ∧
  match s.export_.kind with
  | .function => ∃ k, s.address = .function (tableBase + k) ∧ F[k]? = some (lib, s.export_.name)
  | .global => s.address = .global s.export_.name
  | .tag => False

theorem GoodSym.ext {F lib m m' s} (h : GoodSym tableBase memoryBase F lib m s) (he : Ext m m') :
    GoodSym tableBase memoryBase F lib m' s := ⟨h.1.ext he, h.2⟩

def funcs (lib : Name) (es : List Export) : List (Name × Name) :=
  (es.filter (·.kind = .function)).map fun e => (lib, e.name)

theorem padded_at (b : List UInt8) (base : Nat) (x : Name) :
    HasBytes (b ++ padded x) base (base + b.length) x := by
  unfold padded
  rw [← List.append_assoc]
  exact (hasBytes_end b base x).mono _

theorem addNames_ok {F : List (Name × Name)} {lib : Name} : ∀ {es : List Export} {b : List UInt8}
    {n : Nat} {pre post : List (Name × Name)}, F = pre ++ funcs lib es ++ post → pre.length = n →
    ∃ r b' n', addNames tableBase memoryBase es b n = (r, b', n') ∧ Ext b b' ∧
      n' = n + (funcs lib es).length ∧ r.map (·.export_) = es.filter (·.kind ≠ .tag) ∧
      ∀ s ∈ r, GoodSym tableBase memoryBase F lib b' s
  | [], b, n, _, _, _, _ => ⟨[], b, n, rfl, .refl _, by simp [funcs], rfl, by simp⟩
  | e :: es, b, n, pre, post, hF, hn => by
    have hat := padded_at b memoryBase e.name
    cases hk : e.kind with
    | function =>
      have hf : funcs lib (e :: es) = (lib, e.name) :: funcs lib es := by simp [funcs, hk]
      obtain ⟨r, b', n', h1, h2, h3, h4, h5⟩ := addNames_ok (F := F) (lib := lib) (es := es)
        (b := b ++ padded e.name) (n := n + 1) (pre := pre ++ [(lib, e.name)]) (post := post)
        (by rw [hF, hf]; simp) (by simp [hn])
      refine ⟨⟨e, memoryBase + b.length, .function (tableBase + n)⟩ :: r, b', n',
        by unfold addNames; simp only [hk, h1], (Ext.app _ _).trans h2,
        by rw [h3, hf]; simp; omega, by simp [hk, h4], ?_⟩
      intro s hs
      rcases List.mem_cons.1 hs with rfl | hs
      · refine ⟨hat.ext h2, ?_⟩
        simp only [hk]
        refine ⟨n, rfl, ?_⟩
        rw [hF, hf, ← hn]
        simp
      · exact h5 s hs
    | global =>
      have hf : funcs lib (e :: es) = funcs lib es := by simp [funcs, hk]
      obtain ⟨r, b', n', h1, h2, h3, h4, h5⟩ := addNames_ok (F := F) (lib := lib) (es := es)
        (b := b ++ padded e.name) (n := n) (pre := pre) (post := post) (by rw [hF, hf]) hn
      refine ⟨⟨e, memoryBase + b.length, .global e.name⟩ :: r, b', n',
        by unfold addNames; simp only [hk, h1], (Ext.app _ _).trans h2,
        by rw [h3, hf], by simp [hk, h4], ?_⟩
      intro s hs
      rcases List.mem_cons.1 hs with rfl | hs
      · refine ⟨hat.ext h2, ?_⟩
        simp only [hk]
      · exact h5 s hs
    | tag =>
      have hf : funcs lib (e :: es) = funcs lib es := by simp [funcs, hk]
      obtain ⟨r, b', n', h1, h2, h3, h4, h5⟩ := addNames_ok (F := F) (lib := lib) (es := es)
        (b := b ++ padded e.name) (n := n) (pre := pre) (post := post) (by rw [hF, hf]) hn
      exact ⟨r, b', n', by unfold addNames; simp only [hk, h1], (Ext.app _ _).trans h2,
        by rw [h3, hf], by simp [hk, h4], h5⟩

/-- What is written for a symbol. -/
def RawSym (memoryBase : Nat) (init : Name → Name → Nat) (lib : Name) (m : List UInt8) (g : List (Name × Name × Nat)) (p : Nat)
    (s : Sym) : Prop :=
  HasBytes m memoryBase p (le32 s.export_.name.length) ∧
  HasBytes m memoryBase (p + 4) (le32 s.nameAddress) ∧
  match s.address with
  | .function a => HasBytes m memoryBase (p + 8) (le32 a)
  | .global name => HasBytes m memoryBase (p + 8) (le32 (init lib name)) ∧ (lib, name, p + 8) ∈ g

theorem RawSym.ext {lib m m' g g' p s} (h : RawSym memoryBase init lib m g p s) (he : Ext m m')
    (hg : ∀ x ∈ g, x ∈ g') : RawSym memoryBase init lib m' g' p s := by
  refine ⟨h.1.ext he, h.2.1.ext he, ?_⟩
  have := h.2.2
  cases hs : s.address with
  | function a => rw [hs] at this; exact HasBytes.ext this he
  | global n => rw [hs] at this; exact ⟨HasBytes.ext this.1 he, hg _ this.2⟩

theorem writeSyms_ok {lib : Name} : ∀ {ss : List Sym} {b : List UInt8} {g},
    ∃ b' g', writeSyms memoryBase init lib ss b g = (b', g') ∧ Ext b b' ∧ (∀ x ∈ g, x ∈ g') ∧
      b'.length = b.length + 12 * ss.length ∧
      ∀ i s, ss[i]? = some s → RawSym memoryBase init lib b' g' (memoryBase + b.length + 12 * i) s
  | [], b, g => ⟨b, g, rfl, .refl _, fun _ h => h, by simp, by simp⟩
  | s :: ss, b, g => by
    have e1 : HasBytes (b ++ le32 s.export_.name.length ++ le32 s.nameAddress) memoryBase
        (memoryBase + b.length) (le32 s.export_.name.length) := (hasBytes_end _ _ _).mono _
    have e2 : HasBytes (b ++ le32 s.export_.name.length ++ le32 s.nameAddress) memoryBase
        (memoryBase + b.length + 4) (le32 s.nameAddress) := by
      have := hasBytes_end (b ++ le32 s.export_.name.length) memoryBase (le32 s.nameAddress)
      rw [List.length_append, le32_length, ← Nat.add_assoc] at this
      exact this
    have hlen : (b ++ le32 s.export_.name.length ++ le32 s.nameAddress).length = b.length + 8 := by
      simp [le32_length]
    have step : ∀ (w : List UInt8) (g1 : List (Name × Name × Nat)), w.length = 4 →
        (∀ x ∈ g, x ∈ g1) →
        (match s.address with
          | .function a => w = le32 a
          | .global name => w = le32 (init lib name) ∧ (lib, name, memoryBase + b.length + 8) ∈ g1) →
        ∃ b' g', writeSyms memoryBase init lib ss
            (b ++ le32 s.export_.name.length ++ le32 s.nameAddress ++ w) g1 = (b', g') ∧
          Ext b b' ∧ (∀ x ∈ g, x ∈ g') ∧ b'.length = b.length + 12 * (s :: ss).length ∧
          ∀ i s', (s :: ss)[i]? = some s' →
            RawSym memoryBase init lib b' g' (memoryBase + b.length + 12 * i) s' := by
      intro w g1 hw hg hs
      obtain ⟨b', g', h1, h2, h3, h4, h5⟩ := writeSyms_ok (lib := lib) (ss := ss)
        (b := b ++ le32 s.export_.name.length ++ le32 s.nameAddress ++ w) (g := g1)
      have hl : (b ++ le32 s.export_.name.length ++ le32 s.nameAddress ++ w).length
          = b.length + 12 := by rw [List.length_append, hlen, hw]
      refine ⟨b', g', h1, ?_, fun x hx => h3 x (hg x hx), ?_, fun i s' hi => ?_⟩
      · refine Ext.trans ?_ h2
        exact ⟨le32 s.export_.name.length ++ le32 s.nameAddress ++ w, by simp⟩
      · rw [h4, hl, List.length_cons]
        omega
      · cases i with
        | zero =>
          cases hi
          refine ⟨(e1.mono w).ext h2, (e2.mono w).ext h2, ?_⟩
          cases ha : s.address with
          | function a =>
            rw [ha] at hs
            have hs : w = le32 a := hs
            have := hasBytes_end (b ++ le32 s.export_.name.length ++ le32 s.nameAddress) memoryBase w
            rw [hlen, ← Nat.add_assoc, hs] at this
            rw [hs] at h2
            exact this.ext h2
          | global n =>
            rw [ha] at hs
            have hs : w = le32 (init lib n) ∧ (lib, n, memoryBase + b.length + 8) ∈ g1 := hs
            have := hasBytes_end (b ++ le32 s.export_.name.length ++ le32 s.nameAddress) memoryBase w
            rw [hlen, ← Nat.add_assoc, hs.1] at this
            rw [hs.1] at h2
            exact ⟨this.ext h2, h3 _ hs.2⟩
        | succ i =>
          have := h5 i s' hi
          rw [hl] at this
          have he : memoryBase + b.length + 12 * (i + 1) = memoryBase + (b.length + 12) + 12 * i := by
            omega
          rw [he]
          exact this
    unfold writeSyms
    cases ha : s.address with
    | function a => exact step (le32 a) g rfl (fun _ h => h) (by simp only [ha])
    | global n =>
      refine step (le32 (init lib n)) _ rfl (fun x h => List.mem_append_left _ h) ?_
      simp only [ha]
      rw [hlen, ← Nat.add_assoc]
      exact ⟨trivial, by simp⟩

/-- A library whose name and symbols are in memory. -/
def GoodRec (tableBase memoryBase : Nat) (init : Name → Name → Nat) (le : Name → Name → Bool) (F : List (Name × Name))
    (m : List UInt8) (g : List (Name × Name × Nat)) (r : Rec) : Prop :=
  HasBytes m memoryBase r.nameAddress r.lib.name ∧
  ∃ ss : List Sym, (ss.map (·.export_)).Perm (r.lib.exports.filter (·.kind ≠ .tag)) ∧
    (Total le → ss.Pairwise fun x y => le x.export_.name y.export_.name = true) ∧
    r.symbols + 12 * ss.length ≤ memoryBase + m.length ∧
    (∀ s ∈ ss, GoodSym tableBase memoryBase F r.lib.name m s) ∧
    ∀ i s, ss[i]? = some s → RawSym memoryBase init r.lib.name m g (r.symbols + 12 * i) s

theorem GoodRec.ext {F m m' g g' r} (h : GoodRec tableBase memoryBase init le F m g r) (he : Ext m m')
    (hg : ∀ x ∈ g, x ∈ g') : GoodRec tableBase memoryBase init le F m' g' r := by
  obtain ⟨h1, ss, h2, h3, h4, h5, h6⟩ := h
  have := he.le
  exact ⟨h1.ext he, ss, h2, h3, by omega, fun s hs => (h5 s hs).ext he,
    fun i s hi => (h6 i s hi).ext he hg⟩

theorem addLib_ok {F pre post : List (Name × Name)} {lib : Lib} {st : St}
    (hF : F = pre ++ funcs lib.name lib.exports ++ post) (hn : pre.length = st.functions) :
    ∃ r st', addLib tableBase memoryBase init le lib st = (r, st') ∧ r.lib = lib ∧
      Ext st.buffer st'.buffer ∧ (∀ x ∈ st.globals, x ∈ st'.globals) ∧
      st'.functions = st.functions + (funcs lib.name lib.exports).length ∧
      GoodRec tableBase memoryBase init le F st'.buffer st'.globals r := by
  obtain ⟨ss, b, n, h1, h2, h3, h4, h5⟩ := addNames_ok (tableBase := tableBase)
    (memoryBase := memoryBase) (b := st.buffer ++ padded lib.name) hF hn
  obtain ⟨b', g, k1, k2, k3, k4, k5⟩ := writeSyms_ok (memoryBase := memoryBase) (init := init) (lib := lib.name)
    (ss := ss.mergeSort fun x y => le x.export_.name y.export_.name) (b := b) (g := st.globals)
  refine ⟨⟨lib, memoryBase + st.buffer.length, memoryBase + b.length⟩, ⟨b', g, n⟩,
    by unfold addLib; simp only [h1, k1], rfl, ?_, k3, h3, ?_, ?_⟩
  · exact ((Ext.app _ _).trans h2).trans k2
  · exact (padded_at st.buffer memoryBase lib.name).ext (h2.trans k2)
  · have hp := List.mergeSort_perm ss fun x y => le x.export_.name y.export_.name
    refine ⟨_, ?_, fun ht => ?_, ?_, fun s hs => (h5 s (hp.mem_iff.1 hs)).ext k2, k5⟩
    · rw [← h4]
      exact hp.map _
    · exact List.pairwise_mergeSort (le := fun x y : Sym => le x.export_.name y.export_.name)
        (fun a b c => ht.trans _ _ _)
        (fun a b => by simpa using ht.total a.export_.name b.export_.name) ss
    · show memoryBase + b.length + _ ≤ memoryBase + b'.length
      omega

def allFuncs (libs : List Lib) : List (Name × Name) := libs.flatMap fun l => funcs l.name l.exports

theorem addLibs_ok {F : List (Name × Name)} : ∀ {libs : List Lib} {st : St}
    {pre post : List (Name × Name)}, F = pre ++ allFuncs libs ++ post → pre.length = st.functions →
    ∃ rs st', addLibs tableBase memoryBase init le libs st = (rs, st') ∧ rs.map (·.lib) = libs ∧
      Ext st.buffer st'.buffer ∧ (∀ x ∈ st.globals, x ∈ st'.globals) ∧
      st'.functions = st.functions + (allFuncs libs).length ∧
      ∀ r ∈ rs, GoodRec tableBase memoryBase init le F st'.buffer st'.globals r
  | [], st, _, _, _, _ => ⟨[], st, rfl, rfl, .refl _, fun _ h => h, by simp [allFuncs], by simp⟩
  | lib :: libs, st, pre, post, hF, hn => by
    have ha : allFuncs (lib :: libs) = funcs lib.name lib.exports ++ allFuncs libs := by
      simp [allFuncs]
    obtain ⟨r, st1, h1, h2, h3, h4, h5, h6⟩ := addLib_ok (tableBase := tableBase)
      (memoryBase := memoryBase) (init := init) (le := le) (F := F) (pre := pre) (post := allFuncs libs ++ post)
      (lib := lib) (st := st) (by rw [hF, ha]; simp) hn
    obtain ⟨rs, st2, k1, k2, k3, k4, k5, k6⟩ := addLibs_ok (F := F) (libs := libs) (st := st1)
      (pre := pre ++ funcs lib.name lib.exports) (post := post) (by rw [hF, ha]; simp)
      (by rw [h5, List.length_append, hn])
    refine ⟨r :: rs, st2, by unfold addLibs; simp only [h1, k1], by simp [h2, k2], h3.trans k3,
      fun x hx => k4 x (h4 x hx), ?_, ?_⟩
    · rw [k5, h5, ha, List.length_append]
      omega
    · intro r' hr'
      rcases List.mem_cons.1 hr' with rfl | hr'
      · exact h6.ext k3 k4
      · exact k6 r' hr'

/-- What is written for a library. -/
def RawLib (memoryBase : Nat) (m : List UInt8) (p : Nat) (r : Rec) : Prop :=
  HasBytes m memoryBase p (le32 r.lib.name.length) ∧
  HasBytes m memoryBase (p + 4) (le32 r.nameAddress) ∧
  HasBytes m memoryBase (p + 8) (le32 r.lib.exports.length) ∧
  HasBytes m memoryBase (p + 12) (le32 r.symbols)

theorem writeLibs_ok : ∀ {rs : List Rec} {b : List UInt8}, Ext b (writeLibs rs b) ∧
    (writeLibs rs b).length = b.length + 16 * rs.length ∧
    ∀ i r, rs[i]? = some r → RawLib memoryBase (writeLibs rs b) (memoryBase + b.length + 16 * i) r
  | [], b => ⟨.refl _, by simp [writeLibs], by simp⟩
  | r :: rs, b => by
    unfold writeLibs
    obtain ⟨h1, h2, h3⟩ := writeLibs_ok (rs := rs) (b := b ++ le32 r.lib.name.length ++
      le32 r.nameAddress ++ le32 r.lib.exports.length ++ le32 r.symbols)
    have hl : (b ++ le32 r.lib.name.length ++ le32 r.nameAddress ++ le32 r.lib.exports.length ++
        le32 r.symbols).length = b.length + 16 := by simp [le32_length]
    refine ⟨Ext.trans ⟨le32 r.lib.name.length ++ le32 r.nameAddress ++ le32 r.lib.exports.length ++
      le32 r.symbols, by simp⟩ h1, by rw [h2, hl, List.length_cons]; omega, fun i r' hi => ?_⟩
    cases i with
    | zero =>
      cases hi
      refine ⟨HasBytes.ext ?_ h1, HasBytes.ext ?_ h1, HasBytes.ext ?_ h1, HasBytes.ext ?_ h1⟩
      · exact (((hasBytes_end b memoryBase _).mono _).mono _).mono _
      · have := hasBytes_end (b ++ le32 r.lib.name.length) memoryBase (le32 r.nameAddress)
        rw [List.length_append, le32_length, ← Nat.add_assoc] at this
        exact (this.mono _).mono _
      · have := hasBytes_end (b ++ le32 r.lib.name.length ++ le32 r.nameAddress) memoryBase
          (le32 r.lib.exports.length)
        simp only [List.length_append, le32_length] at this
        exact this.mono _
      · have := hasBytes_end (b ++ le32 r.lib.name.length ++ le32 r.nameAddress ++
          le32 r.lib.exports.length) memoryBase (le32 r.symbols)
        simp only [List.length_append, le32_length] at this
        exact this
    | succ i =>
      have := h3 i r' hi
      rw [hl] at this
      have he : memoryBase + b.length + 16 * (i + 1) = memoryBase + (b.length + 16) + 16 * i := by
        omega
      rw [he]
      exact this

end Verif.DlTable
