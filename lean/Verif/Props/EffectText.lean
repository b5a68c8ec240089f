import Verif.Lemmas.EffectText
import Verif.Props.EffectBuild

/-! # C99: looking up queries whose conversion to a string panics, has effects or is inconsistent -/

namespace Frozen.Props

open Frozen Frozen.Spec Frozen.Model

variable {W S V : Type}

/-- **C99** Whatever `AsRef<str>` of the query and the hasher do: an entry that is found has the text that the query was converted to, once, as its key. -/
theorem c99_found (asRef : S → Eff W Str) (b1 b2 : Str → Eff W Nat) (m : FzStringMap V) (q : S) (w : W) {i : Nat}
    (h : (m.searchAsE asRef b1 b2 q w).1 = .ok (some i)) : ∃ t u v, asRef q w = (.ok t, u) ∧ m.entries[i]? = some (t, v) := by
  unfold FzStringMap.searchAsE at h
  rcases hq : asRef q w with ⟨r, u⟩
  rcases r with e | t
  · rw [eff_bind_error hq] at h
    cases h
  · rw [eff_bind_ok hq] at h
    obtain ⟨v, hv⟩ := searchE_finds b1 b2 m t u _ h i rfl
    exact ⟨t, u, v, rfl, hv⟩

/-- **C99** If the conversion panics, this is passed on, and nothing else is done. -/
theorem c99_conversion_panics {asRef : S → Eff W Str} (b1 b2 : Str → Eff W Nat) (m : FzStringMap V) {q : S} {w u : W} {f : Fault}
    (h : asRef q w = (.error f, u)) : m.searchAsE asRef b1 b2 q w = (.error f, u) := eff_bind_error h

/-- **C99** If `AsRef<str>` gives the text of the query or panics, and the hasher answers lawfully or panics, then lookups panic or find the entry of
this text. -/
theorem c99_lookup [Target] {bhStr bhSlice : Str → Nat} {es : List (Str × V)} {m : FzStringMap V}
    (hb : Built (fun a b : Str => a == b) (fun a b : Str => a == b) es (FzStringMap.impl bhStr bhSlice) m) {text : S → Str} {asRef : S → Eff W Str}
    {b1 b2 : Str → Eff W Nat} (h0 : ∀ s, PanicsOr (asRef s) (.ok (text s))) (h1 : ∀ s, PanicsOr (b1 s) (.ok (bhStr s)))
    (h2 : ∀ s, PanicsOr (b2 s) (.ok (bhSlice s))) (q : S) (w : W) :
    Panics (m.searchAsE asRef b1 b2 q w).1 ∨ ∃ p, (m.searchAsE asRef b1 b2 q w).1 = .ok p ∧
      (p.bind fun i => m.entries[i]?) = lastMatch (fun a b : Str => a == b) es (text q) := by
  have hr : PanicsOr (m.searchAsE asRef b1 b2 q) (m.getMut bhStr bhSlice (text q)) :=
    (relPanicsOr W).bindOk (h0 q) ((relPanicsOr W).fzString h1 h2 m (text q))
  rcases hr w with h | h
  · exact .inl h
  · obtain ⟨Inv, F⟩ := hb.facts
    obtain ⟨p, hp, hn, hs⟩ := F.lookups.getMut (text q)
    refine .inr ⟨p, h.trans hp, ?_⟩
    cases p with
    | none => exact (hn.1 rfl).symm
    | some i => exact hs i rfl

/-- **C99** If the state of the program records whether user code has panicked, lookups panic if and only if it has. -/
theorem c99_blame [Target] {bhStr bhSlice : Str → Nat} {es : List (Str × V)} {m : FzStringMap V}
    (hb : Built (fun a b : Str => a == b) (fun a b : Str => a == b) es (FzStringMap.impl bhStr bhSlice) m) {text : S → Str} {asRef : S → Eff W Str}
    {b1 b2 : Str → Eff W Nat} {bad : W → Prop} (h0 : ∀ s, Marks bad (asRef s) (.ok (text s))) (h1 : ∀ s, Marks bad (b1 s) (.ok (bhStr s)))
    (h2 : ∀ s, Marks bad (b2 s) (.ok (bhSlice s))) (q : S) (w : W) (hw : ¬ bad w) :
    Panics (m.searchAsE asRef b1 b2 q w).1 ↔ bad (m.searchAsE asRef b1 b2 q w).2 := by
  have hr : Marks bad (m.searchAsE asRef b1 b2 q) (m.getMut bhStr bhSlice (text q)) :=
    (relMarks bad).bindOk (h0 q) ((relMarks bad).fzString h1 h2 m (text q))
  obtain ⟨Inv, F⟩ := hb.facts
  obtain ⟨p, hp, -, -⟩ := F.lookups.getMut (text q)
  rcases hr w hw with ⟨h1, h2⟩ | ⟨h1, h2⟩
  · exact ⟨fun _ => h1, fun _ => h2⟩
  · refine ⟨fun ⟨msg, h⟩ => ?_, fun h => absurd h h1⟩
    rw [h2] at h
    have := hp.symm.trans h
    cases this

/-- **C99** Whatever `AsRef<str>` and the hasher do, also if a query is converted to another text every time: the references that `get_disjoint_mut` hands out are to
different values.  Every query was converted once, the texts are different, and every reference is to the value of the text of its
query. -/
theorem c99_disjoint (asRef : S → Eff W Str) (b1 b2 : Str → Eff W Nat) (m : FzStringMap V) (qs : List S) (w : W) {ps : List (Option Nat)}
    (h : (m.disjointAsE asRef b1 b2 qs w).1 = .ok ps) :
    (ps.filterMap id).Nodup ∧ ∃ ts u, Texts asRef qs w ts u ∧ ts.Nodup ∧
      List.Forall₂ (fun t p => ∀ i, p = some i → ∃ v, m.entries[i]? = some (t, v)) ts ps := by
  unfold FzStringMap.disjointAsE at h
  rcases hq : mapE asRef qs w with ⟨r, u⟩
  rcases r with e | ts
  · rw [eff_bind_error hq] at h
    cases h
  · rw [eff_bind_ok hq] at h
    obtain ⟨d, hd, hdup⟩ := hasDuplicatesE_strings (W := W) ts
    unfold disjointMutE at h
    rw [eff_bind_ok (hdup u)] at h
    cases d with
    | true => cases h
    | false =>
      have hf := Returns.disjointUnchecked (searchE_finds b1 b2 m) ts u ps h
      exact ⟨(forall₂_nodup hf (hd.1 rfl)).1, ts, u, mapE_texts.1 hq, hd.1 rfl, hf⟩

/-- **C99** `get_disjoint_mut` refuses queries that are converted to the same text, without hashing any of them. -/
theorem c99_disjoint_refuses {asRef : S → Eff W Str} (b1 b2 : Str → Eff W Nat) (m : FzStringMap V) {qs : List S} {w u : W} {ts : List Str}
    (ht : Texts asRef qs w ts u) (hn : ¬ ts.Nodup) : m.disjointAsE asRef b1 b2 qs w = (.error (.panic "duplicate keys found"), u) := by
  unfold FzStringMap.disjointAsE
  rw [eff_bind_ok (mapE_texts.2 ht)]
  obtain ⟨d, hd, hdup⟩ := hasDuplicatesE_strings (W := W) ts
  unfold disjointMutE
  rw [eff_bind_ok (hdup u)]
  cases d with
  | true => rfl
  | false => exact absurd (hd.1 rfl) hn

/-- **C99** If the texts are different, `get_disjoint_mut` does what `get_disjoint_unchecked_mut` does. -/
theorem c99_disjoint_accepts {asRef : S → Eff W Str} (b1 b2 : Str → Eff W Nat) (m : FzStringMap V) {qs : List S} {w u : W} {ts : List Str}
    (ht : Texts asRef qs w ts u) (hn : ts.Nodup) : m.disjointAsE asRef b1 b2 qs w = m.disjointUncheckedAsE asRef b1 b2 qs w := by
  unfold FzStringMap.disjointAsE FzStringMap.disjointUncheckedAsE
  rw [eff_bind_ok (mapE_texts.2 ht), eff_bind_ok (mapE_texts.2 ht)]
  obtain ⟨d, hd, hdup⟩ := hasDuplicatesE_strings (W := W) ts
  unfold disjointMutE
  rw [eff_bind_ok (hdup u), hd.2 hn]
  rfl

/-- **C99** Whatever `AsRef<str>` does, if the hasher answers lawfully or panics: `get_disjoint_mut` misses nothing.  For every query it hands out the value of the
entry with the text that the query was converted to, and `None` only if there is no such entry; the same for `get_disjoint_unchecked_mut`. -/
theorem c99_disjoint_complete [Target] {bhStr bhSlice : Str → Nat} {es : List (Str × V)} {m : FzStringMap V}
    (hb : Built (fun a b : Str => a == b) (fun a b : Str => a == b) es (FzStringMap.impl bhStr bhSlice) m) (asRef : S → Eff W Str)
    {b1 b2 : Str → Eff W Nat} (h1 : ∀ s, PanicsOr (b1 s) (.ok (bhStr s))) (h2 : ∀ s, PanicsOr (b2 s) (.ok (bhSlice s))) (qs : List S) (w : W)
    {ps : List (Option Nat)} (h : (m.disjointAsE asRef b1 b2 qs w).1 = .ok ps ∨ (m.disjointUncheckedAsE asRef b1 b2 qs w).1 = .ok ps) :
    ∃ ts u, Texts asRef qs w ts u ∧
      List.Forall₂ (fun t p => (p.bind fun i => m.entries[i]?) = lastMatch (fun a b : Str => a == b) es t) ts ps := by
  have hf : ∀ t, Returns (m.searchE b1 b2 t) (fun p => (p.bind fun i => m.entries[i]?) = lastMatch (fun a b : Str => a == b) es t) := by
    intro t w p hp
    obtain ⟨Inv, F⟩ := hb.facts
    obtain ⟨p', hp', hn, hs⟩ := F.lookups.getMut t
    rcases (relPanicsOr W).fzString h1 h2 m t w with ⟨msg, h⟩ | h
    · rw [h] at hp
      cases hp
    · have := hp.symm.trans (h.trans hp')
      cases this
      cases p with
      | none => exact (hn.1 rfl).symm
      | some i => exact hs i rfl
  rcases hq : mapE asRef qs w with ⟨r, u⟩
  unfold FzStringMap.disjointAsE FzStringMap.disjointUncheckedAsE at h
  rcases r with e | ts
  · rw [eff_bind_error hq, eff_bind_error hq] at h
    rcases h with h | h <;> cases h
  · rw [eff_bind_ok hq, eff_bind_ok hq] at h
    refine ⟨ts, u, mapE_texts.1 hq, ?_⟩
    rcases h with h | h
    · obtain ⟨d, hd, hdup⟩ := hasDuplicatesE_strings (W := W) ts
      unfold disjointMutE at h
      rw [eff_bind_ok (hdup u)] at h
      cases d with
      | true => cases h
      | false => exact Returns.disjointUnchecked hf ts u ps h
    · exact Returns.disjointUnchecked hf ts u ps h

theorem SafeCode.disjointUnchecked {Q : Type} {search : Q → Eff W (Option Nat)} (h : ∀ q, SafeCode (search q)) :
    ∀ qs, SafeCode (disjointUncheckedE search qs)
  | [] => SafeCode.lift (NoUb.ok _)
  | q :: qs => SafeCode.bind (h q) (fun _ => SafeCode.bind (SafeCode.disjointUnchecked h qs) (fun _ => SafeCode.lift (NoUb.ok _)))

theorem SafeCode.mapE {A B : Type} {f : A → Eff W B} (h : ∀ a, SafeCode (f a)) : ∀ l, SafeCode (Model.mapE f l)
  | [] => SafeCode.lift (NoUb.ok _)
  | a :: l => SafeCode.bind (h a) (fun _ => SafeCode.bind (SafeCode.mapE h l) (fun _ => SafeCode.lift (NoUb.ok _)))

/-- **C99** No lookup in a string map runs into undefined behaviour, whatever safe code `AsRef<str>` and the hasher are. -/
theorem c99_memory_safe [Target] {m : FzStringMap V} (hm : StringMapInUse m) {asRef : S → Eff W Str} {b1 b2 : Str → Eff W Nat}
    (h0 : ∀ s, SafeCode (asRef s)) (h1 : ∀ s, SafeCode (b1 s)) (h2 : ∀ s, SafeCode (b2 s)) :
    (∀ q, SafeCode (m.searchAsE asRef b1 b2 q)) ∧ (∀ qs, SafeCode (m.disjointAsE asRef b1 b2 qs)) ∧
      ∀ qs, SafeCode (m.disjointUncheckedAsE asRef b1 b2 qs) := by
  obtain ⟨sort, bhStr, bhSlice, es, a, m₀, hs, hn, hm, hw⟩ := hm
  have hf : ∀ t, SafeCode (m.searchE b1 b2 t) := fun t w => (fzStringE_fine hs hn hm hw h1 h2 t w).1
  refine ⟨fun q => SafeCode.bind (h0 q) hf, fun qs => SafeCode.bind (SafeCode.mapE h0 qs) (fun ts => ?_),
    fun qs => SafeCode.bind (SafeCode.mapE h0 qs) (SafeCode.disjointUnchecked hf)⟩
  obtain ⟨d, -, hdup⟩ := hasDuplicatesE_strings (W := W) ts
  refine SafeCode.bind (fun w => by rw [hdup w]; exact NoUb.ok _) (fun d => ?_)
  cases d with
  | true => exact SafeCode.lift (fun _ h => by cases h)
  | false => exact SafeCode.disjointUnchecked hf ts

/-! ## Examples -/

/-- `AsRef<str>` that gives another text at every call, whatever the query: the number of the call. -/
def fickleText (_ : Unit) : Eff Nat Str := fun c => (.ok [c.toUInt8], c + 1)

/-- A conversion that panics at call `n`. -/
def textPanics (n : Nat) (k : Nat) : Eff Nat Str := fun c => if c = n then (.error (.panic "as_ref"), c + 1) else (.ok [k.toUInt8], c + 1)

/-- The same, with a mark in the state. -/
def textMarks (n : Nat) (k : Nat) : Eff (Nat × Bool) Str := fun w => if w.1 = n then (.error (.panic "as_ref"), (w.1 + 1, true)) else (.ok [k.toUInt8], (w.1 + 1, w.2))

/-- The hasher: the number of bytes. -/
def sizeHasher {W : Type} (s : Str) : Eff W Nat := pure s.length

section examples

attribute [local instance] w64

/-- Two equal queries to an inconsistent `AsRef<str>`: the references are to different values all the same. -/
example (m : FzStringMap Char) (b : Str → Eff Nat Nat) (w : Nat) {i j : Nat} (h : (m.disjointAsE fickleText b b [(), ()] w).1 = .ok [some i, some j]) :
    i ≠ j := by
  have := (c99_disjoint fickleText b b m _ w h).1
  simpa using this

/-- Three queries of which two have the same text are refused after three conversions. -/
example (m : FzStringMap Char) (b : Str → Eff Nat Nat) :
    m.disjointAsE (textPanics 99) b b [7, 8, 7] 0 = (.error (.panic "duplicate keys found"), 3) :=
  c99_disjoint_refuses b b m (.cons rfl (.cons rfl (.cons rfl .nil))) (by decide)

/-- With different texts nothing is refused. -/
example (m : FzStringMap Char) (b : Str → Eff Nat Nat) :
    m.disjointAsE (textPanics 99) b b [7, 8, 9] 0 = m.disjointUncheckedAsE (textPanics 99) b b [7, 8, 9] 0 :=
  c99_disjoint_accepts b b m (.cons rfl (.cons rfl (.cons rfl .nil))) (by decide)

/-- A panic of the conversion. -/
example (m : FzStringMap Char) (b : Str → Eff Nat Nat) : m.searchAsE (textPanics 4) b b 7 4 = (.error (.panic "as_ref"), 5) :=
  c99_conversion_panics b b m rfl

/-- There is a string map, and lookups find 'c' under the text of 7, unless the conversion panics. -/
example {sort : Sorter (Str × Char)} (hso : SorterOk sort) (n w : Nat) : ∃ m : FzStringMap Char,
    (Panics (m.searchAsE (textPanics n) sizeHasher sizeHasher 7 w).1 ∨
      ∃ p, (m.searchAsE (textPanics n) sizeHasher sizeHasher 7 w).1 = .ok p ∧ (p.bind fun i => m.entries[i]?) = some ([7], 'c')) ∧
    ∀ b : Str → Eff Nat Nat, (∀ s, SafeCode (b s)) → ∀ qs, SafeCode (m.disjointAsE fickleText b b qs) := by
  obtain ⟨m, hm, -⟩ := FzStringMap.withHasher_spec hso (fun s => s.length) (fun s => s.length) [([7], 'a'), ([3], 'b'), ([7], 'c')] (by decide)
  refine ⟨m, ?_, fun b hb => ?_⟩
  · have h0 : ∀ k, PanicsOr (textPanics n k) (.ok [k.toUInt8]) := fun k c => by unfold textPanics; by_cases h : c = n <;> simp [h, Panics]
    exact c99_lookup (b1 := sizeHasher) (b2 := sizeHasher) (es := [([7], 'a'), ([3], 'b'), ([7], 'c')]) (.fzString hso (by decide) hm) (text := fun k => [k.toUInt8])
      h0 (fun s => fun _ => .inr rfl) (fun s => fun _ => .inr rfl) 7 w
  · obtain ⟨r, hr, -⟩ := analyzeSliceKeys_spec (fun x y => x == y) (fun s : Str => s.length)
      ((usingCmp [(([7] : Str), 'a'), ([3], 'b'), ([7], 'c')] (fun x y => strCmp x.1 y.1)).map (fun x => x.1))
    have hm' := hm
    unfold FzStringMap.withHasher at hm'
    have hl : (usingCmp [(([7] : Str), 'a'), ([3], 'b'), ([7], 'c')] (fun x y => strCmp x.1 y.1)).length < sizeLimit :=
      Nat.lt_of_le_of_lt (sad_subset _ _).1 (by decide)
    simp only [hr] at hm'
    exact (c99_memory_safe ⟨sort, fun s => s.length, fun s => s.length, _, r, m, hso, hl, hm', .refl⟩ (fun _ _ _ h => by cases h) hb hb).2.1

/-- A lookup panics if and only if the conversion left its mark. -/
example {sort : Sorter (Str × Char)} (hso : SorterOk sort) (n k : Nat) {m : FzStringMap Char}
    (hm : FzStringMap.withHasher sort (fun s => s.length) (fun s => s.length) [([7], 'a'), ([3], 'b'), ([7], 'c')] = .ok m) :
    Panics (m.searchAsE (textMarks n) sizeHasher sizeHasher k (0, false)).1 ↔ (m.searchAsE (textMarks n) sizeHasher sizeHasher k (0, false)).2.2 = true := by
  refine c99_blame (b1 := sizeHasher) (b2 := sizeHasher) (asRef := textMarks n) (bad := fun w => w.2 = true) (.fzString hso (by decide) hm) (text := fun k => [k.toUInt8])
    (fun k w hw => ?_) (fun s w hw => .inr ⟨hw, rfl⟩) (fun s w hw => .inr ⟨hw, rfl⟩) k (0, false) (by decide)
  unfold textMarks
  by_cases h : w.1 = n
  · rw [if_pos h]
    exact .inl ⟨rfl, _, rfl⟩
  · rw [if_neg h]
    exact .inr ⟨hw, rfl⟩

/-- What is found under a query that has no definite text has the text of that conversion as its key. -/
example (m : FzStringMap Char) (b : Str → Eff Nat Nat) {i : Nat} (h : (m.searchAsE fickleText b b () 5).1 = .ok (some i)) :
    ∃ v, m.entries[i]? = some ([5], v) := by
  obtain ⟨t, u, v, h1, h2⟩ := c99_found fickleText b b m () 5 h
  cases h1
  exact ⟨v, h2⟩

/-- `get_disjoint_mut` with a conversion that gives another text at every call finds the last value of the text 7, and none for the text 8. -/
example {sort : Sorter (Str × Char)} (hso : SorterOk sort) {m : FzStringMap Char} {p1 p2 : Option Nat}
    (hm : FzStringMap.withHasher sort (fun s => s.length) (fun s => s.length) [([7], 'a'), ([3], 'b'), ([7], 'c')] = .ok m)
    (h : (m.disjointAsE fickleText sizeHasher sizeHasher [(), ()] 7).1 = .ok [p1, p2]) :
    (p1.bind fun i => m.entries[i]?) = some ([7], 'c') ∧ (p2.bind fun i => m.entries[i]?) = none := by
  obtain ⟨ts, u, ht, hf⟩ := c99_disjoint_complete (b1 := sizeHasher) (b2 := sizeHasher) (es := [([7], 'a'), ([3], 'b'), ([7], 'c')]) (.fzString hso (by decide) hm)
    fickleText (fun s => fun _ => .inr rfl) (fun s => fun _ => .inr rfl) _ _ (.inl h)
  have : ts = [[7], [8]] := by
    have h1 := mapE_texts.2 ht
    have h2 : mapE fickleText [(), ()] 7 = (.ok [[7], [8]], 9) := rfl
    rw [h2] at h1
    cases h1
    rfl
  subst this
  cases hf with
  | cons h1 h2 =>
    cases h2 with
    | cons h2 _ => exact ⟨h1, h2⟩

end examples

end Frozen.Props
