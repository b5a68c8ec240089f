import Verif.Lemmas.EffectCollect
import Verif.Props.EffectSerde

/-! # C98: `collect` with iterators that panic and have effects -/

namespace Frozen.Props

open Frozen Frozen.Spec Frozen.Model

variable {W A M Q K V : Type}

section

variable [Target] {x : Nat → Eff W (Option M)} {p : RoomPolicy} {it : UserIter W A} {dflt : Eff W Unit} {build : List A → Eff W M}

/-- **C98** Collecting into any of the eight types ends in a state with an outcome if and only if it should: the iterator is asked for items until it has no more;
then hasher and collection are made, from all items in the order they came.  A panic is passed on, without a collection being made of some of the items.  It does
not matter when the growing vector asks for a size hint. -/
theorem c98_collect (h : Collector x p it dflt build) (w w' : W) (r : Res M) : EndsWith x w r w' ↔ CollectsInto p it dflt build w r w' := by
  rw [endsWith_iff]
  constructor
  · rintro ⟨fuel, hf⟩
    rcases h.cases' fuel w with h' | ⟨r', h', h''⟩
    · rw [hf] at h'
      exact absurd h' (withFuel_ne r)
    · rw [hf] at h' h''
      cases r <;> cases r' <;> cases h'' <;> exact h'
  · exact h.of

/-- **C98** It ends in one way only. -/
theorem c98_one_outcome (h : Collector x p it dflt build) {w w₁ w₂ : W} {r₁ r₂ : Res M} (h₁ : EndsWith x w r₁ w₁) (h₂ : EndsWith x w r₂ w₂) :
    r₁ = r₂ ∧ w₁ = w₂ :=
  ((c98_collect h _ _ _).1 h₁).unique ((c98_collect h _ _ _).1 h₂)

/-- **C98** If functions of keys answer lawfully or panic, a collection that is returned is the right one for the items of the iterator, all of
them.  (`entries` makes entries of items, with the value `()` for sets.) -/
theorem c98_result (h : Collector x p it dflt build) {eqK : K → K → Bool} {mt : Q → K → Bool} {I : MapImpl M Q K V} {entries : List A → List (K × V)}
    {n : Nat} {fits : List A → Prop}
    (hc : ∀ xs, xs.length < n → ConstructsWith (fun _ x a => PanicsOr x (.ok a)) eqK mt (entries xs) I (build xs) some (fits xs)) {w w' : W} {m : M}
    (hr : EndsWith x w (.ok m) w') :
    ∃ xs u, TakesAll p it 0 (it.start w).2 xs none u ∧
      (xs.length < n → Built eqK mt (entries xs) I m ∧ Lookups I m mt (entries xs) ∧ Contents I m eqK (entries xs)) := by
  have hr := (c98_collect h _ _ _).1 hr
  cases hr with
  | made h1 hs hd hb =>
    refine ⟨_, _, by rw [h1]; exact hs, fun hl => ?_⟩
    exact (c93_map_or_panic (hc _ hl) _).1 m m (by rw [hb]) rfl

/-- **C98** Keys of string collections may be of any type with `AsRef<str>`, which is user code too: every key is converted once, in the order in which the items
came and before anything is hashed; a panic ends it.  The rest is done with the strings. -/
theorem c98_string_keys {S : Type} (sort : Sorter (Str × V)) (asRef : S → Eff W Str) (bhStr bhSlice : Str → Eff W Nat) (es : List (S × V))
    (w w' : W) (r : Res (FzStringMap V)) :
    FzStringMap.withHasherAsE sort asRef bhStr bhSlice es w = (r, w') ↔
      (∃ f, Converts asRef es w (.error f) w' ∧ r = .error f) ∨
        ∃ ts u, Converts asRef es w (.ok ts) u ∧ FzStringMap.withHasherE sort bhStr bhSlice ts u = (r, w') := by
  unfold FzStringMap.withHasherAsE
  have hc := converts_spec asRef es w
  rcases h : mapE (fun e : S × V => asRef e.1 >>= fun s => pure (s, e.2)) es w with ⟨c, u⟩
  rw [h] at hc
  rcases c with f | ts
  · rw [eff_bind_error h]
    constructor
    · rintro ⟨⟩
      exact .inl ⟨f, hc, rfl⟩
    · rintro (⟨g, hg, rfl⟩ | ⟨ts, u', ht, -⟩)
      · obtain ⟨h1, rfl⟩ := hc.unique hg
        cases h1
        rfl
      · cases (hc.unique ht).1
  · rw [eff_bind_ok h]
    constructor
    · exact fun hr => .inr ⟨ts, u, hc, hr⟩
    · rintro (⟨g, hg, rfl⟩ | ⟨ts, u', ht, hr⟩)
      · cases (hc.unique hg).1
      · obtain ⟨h1, rfl⟩ := hc.unique ht
        cases h1
        exact hr

omit [Target] in
/-- After a call that returns, nothing has panicked. -/
theorem MarksPanics.ok {B : Type} {bad : W → Prop} {y : Eff W B} (hy : MarksPanics bad y) {u u' : W} {b : B} (hu : ¬ bad u) (h : y u = (.ok b, u')) :
    ¬ bad u' := by
  intro hb
  have := (hy u hu).1 (by rw [h]; exact hb)
  rw [h] at this
  obtain ⟨_, h⟩ := this
  cases h

omit [Target] in
/-- A call that ends in a fault has panicked if it is a panic. -/
theorem MarksPanics.error {B : Type} {bad : W → Prop} {y : Eff W B} (hy : MarksPanics bad y) {u u' : W} {f : Fault} (hu : ¬ bad u)
    (h : y u = (.error f, u')) : bad u' ↔ ∃ msg, f = .panic msg := by
  have := hy u hu
  rw [h] at this
  exact this.trans ⟨fun ⟨msg, h⟩ => ⟨msg, by cases h; rfl⟩, fun ⟨msg, h⟩ => ⟨msg, by cases h; rfl⟩⟩

omit [Target] in
theorem RoomFor.marks {hint : Eff W Nat} {bad : W → Prop} (hh : MarksPanics bad hint) (hp : Roomy p) {i : Nat} {w w' : W} {r : Option Fault}
    (h : RoomFor p hint i w r w') (hw : ¬ bad w) : bad w' ↔ ∃ msg, r = some (.panic msg) := by
  cases h with
  | enough h => exact ⟨fun h => absurd h hw, fun ⟨_, h⟩ => (by cases h)⟩
  | granted h h' hg => exact ⟨fun h => absurd h (hh.ok hw h'), fun ⟨_, h⟩ => (by cases h)⟩
  | refused h h' hg => rw [hp _ _ _ h] at hg; cases hg
  | broke h h' => exact (hh.error hw h').trans ⟨fun ⟨msg, h⟩ => ⟨msg, by rw [h]⟩, fun ⟨msg, h⟩ => ⟨msg, by cases h; rfl⟩⟩

omit [Target] in
theorem TakesAll.marks {bad : W → Prop} (h1 : MarksPanics bad it.sizeHint) (h2 : MarksPanics bad it.next) (hp : Roomy p) {i : Nat} {w w' : W}
    {xs : List A} {r : Option Fault} (h : TakesAll p it i w xs r w') : ¬ bad w → (bad w' ↔ ∃ msg, r = some (.panic msg)) := by
  induction h with
  | finished h => exact fun hw => ⟨fun hb => absurd hb (h2.ok hw h), fun ⟨_, h⟩ => (by cases h)⟩
  | broke h => exact fun hw => (h2.error hw h).trans ⟨fun ⟨msg, h⟩ => ⟨msg, by rw [h]⟩, fun ⟨msg, h⟩ => ⟨msg, by cases h; rfl⟩⟩
  | noRoom h hr => exact fun hw => hr.marks h1 hp (h2.ok hw h)
  | more h hr _ ih =>
    intro hw
    refine ih (fun hb => ?_)
    obtain ⟨_, h⟩ := (hr.marks h1 hp (h2.ok hw h)).1 hb
    cases h

/-- **C98** If the state of the program records whether user code (the iterator, `Default` of the hasher, functions of keys) has panicked, and there is
memory: collecting panics if and only if user code has panicked during it. -/
theorem c98_blame (h : Collector x p it dflt build) (hp : Roomy p) {bad : W → Prop} (h0 : MarksPanics bad it.start) (h1 : MarksPanics bad it.sizeHint)
    (h2 : MarksPanics bad it.next) (h3 : MarksPanics bad dflt) {eqK : K → K → Bool} {mt : Q → K → Bool} {I : MapImpl M Q K V}
    {entries : List A → List (K × V)} {n : Nat} {fits : List A → Prop}
    (hc : ∀ xs, xs.length < n → ConstructsWith (fun _ x a => Marks bad x (.ok a)) eqK mt (entries xs) I (build xs) some (fits xs)) {w : W}
    (hw : ¬ bad w) (hfit : ∀ xs u, TakesAll p it 0 (it.start w).2 xs none u → xs.length < n ∧ fits xs) {w' : W} {r : Res M}
    (hr : EndsWith x w r w') : Panics r ↔ bad w' := by
  have hr := (c98_collect h _ _ _).1 hr
  have toErr : ∀ {f : Fault}, Panics (.error f : Res M) ↔ ∃ msg, f = .panic msg := fun {f} =>
    ⟨fun ⟨msg, h⟩ => ⟨msg, by cases h; rfl⟩, fun ⟨msg, h⟩ => ⟨msg, by cases h; rfl⟩⟩
  cases hr with
  | noIter hk => exact toErr.trans (h0.error hw hk).symm
  | broke hk hs =>
    exact toErr.trans ⟨fun ⟨msg, h⟩ => (hs.marks h1 h2 hp (h0.ok hw hk)).2 ⟨msg, by rw [h]⟩,
      fun hb => by obtain ⟨msg, h⟩ := (hs.marks h1 h2 hp (h0.ok hw hk)).1 hb; cases h; exact ⟨msg, rfl⟩⟩
  | noHasher hk hs hd =>
    have hu : ¬ bad _ := fun hb => by obtain ⟨_, h⟩ := (hs.marks h1 h2 hp (h0.ok hw hk)).1 hb; cases h
    exact toErr.trans (h3.error hu hd).symm
  | made hk hs hd hb =>
    have hu : ¬ bad _ := fun hb => by obtain ⟨_, h⟩ := (hs.marks h1 h2 hp (h0.ok hw hk)).1 hb; cases h
    obtain ⟨hl, hf⟩ := hfit _ _ (by rw [hk]; exact hs)
    rcases c93_blame (hc _ hl) hf _ (h3.ok hu hd) with ⟨h1, h2⟩ | ⟨h1, a, m, h2, -⟩
    · rw [hb] at h1 h2
      exact ⟨fun _ => h1, fun _ => h2⟩
    · rw [hb] at h1 h2
      exact ⟨fun ⟨_, h⟩ => (by cases h2; cases h), fun hb => absurd hb h1⟩

omit [Target] in
theorem TakesAll.safe (h1 : SafeCode it.sizeHint) (h2 : SafeCode it.next) {i : Nat} {w w' : W} {xs : List A} {r : Option Fault}
    (h : TakesAll p it i w xs r w') : ∀ what, r ≠ some (.ub what) := by
  induction h with
  | finished h => exact fun _ h => by cases h
  | @broke i w w' f h =>
    intro what hf
    cases hf
    exact h2 w what (by rw [h])
  | noRoom h hr =>
    intro what hf
    cases hf
    cases hr with
    | broke h h' => exact h1 _ what (by rw [h'])
  | more _ _ _ ih => exact ih

/-- **C98** Whatever the iterator, the hasher and the functions of keys do, as long as they are safe code: collecting does not run into undefined behaviour, also if
there is no memory, and the map it returns (dense scalar maps apart, see C51) can be used without any, also after stores into it. -/
theorem c98_memory_safe (h : Collector x p it dflt build) (h0 : SafeCode it.start) (h1 : SafeCode it.sizeHint) (h2 : SafeCode it.next)
    (h3 : SafeCode dflt) {I : MapImpl M Q K V} {safe : M → Option M} {n : Nat}
    (hc : ∀ xs : List A, xs.length < n → AnyConstructor I (build xs) safe)
    (hlen : ∀ w xs u, TakesAll p it 0 w xs none u → xs.length < n) {w w' : W} {r : Res M} (hr : EndsWith x w r w') :
    NoUb r ∧ ∀ a m m', r = .ok a → safe a = some m → Stores I m m' → MemSafe I m' := by
  have hr := (c98_collect h _ _ _).1 hr
  have fault : ∀ {f : Fault}, (∀ what, f ≠ .ub what) →
      NoUb (.error f : Res M) ∧ ∀ a m m', (.error f : Res M) = .ok a → safe a = some m → Stores I m m' → MemSafe I m' :=
    fun hf => ⟨fun what h => hf what (by cases h; rfl), fun _ _ _ h => by cases h⟩
  cases hr with
  | noIter hk => exact fault fun what hf => h0 w what (by rw [hk, hf])
  | broke hk hs => exact fault fun what hf => hs.safe h1 h2 what (by rw [hf])
  | noHasher hk hs hd => exact fault fun what hf => h3 _ what (by rw [hd, hf])
  | made hk hs hd hb =>
    refine ⟨fun what hf => c93_constructors_safe (hc _ (hlen _ _ _ hs)) _ what (by rw [hb, hf]), fun a m m' ha hm hst => ?_⟩
    cases ha
    exact c93_results_safe (hc _ (hlen _ _ _ hs)) (by rw [hb]) hm hst

end

/-! ## Examples -/

/-- An iterator that gives (7, 'a') and (3, 'b'), and then panics if `broken` is set.  The state has the number of calls and whether something panicked. -/
def markedIter (broken : Bool) : UserIter (Nat × Bool) (Nat × Char) where
  start := fun w => (.ok (), w)
  sizeHint := fun w => (.ok 0, w)
  next := fun w => match w.1 with
    | 0 => (.ok (some (7, 'a')), (1, w.2))
    | 1 => (.ok (some (3, 'b')), (2, w.2))
    | c => if broken then (.error (.panic "io"), (c + 1, true)) else (.ok none, (c + 1, w.2))

/-- Room for item 0 is asked for; there is memory for up to 1000 items. -/
def smallRoom : RoomPolicy := fun i => if i = 0 then some (fun n => decide (n < 1000)) else none

/-- Room for item 0 is asked for, and there is memory. -/
def amplyRoom : RoomPolicy := fun i => if i = 0 then some (fun _ => true) else none

theorem amplyRoom_roomy : Roomy amplyRoom := by
  intro i g n h
  unfold amplyRoom at h
  split at h <;> cases h
  rfl

/-- An iterator of strings that says there will be `n` more; the state is the number of calls. -/
def boastful (n : Nat) : UserIter Nat Str where
  start := fun c => (.ok (), c)
  sizeHint := fun c => (.ok n, c + 100)
  next := fun c => (.ok (some []), c + 1)

theorem markedIter_takes (p : RoomPolicy) (hp : Roomy p) (b : Bool) : TakesAll p (markedIter false) 0 (0, b) [(7, 'a'), (3, 'b')] none (3, b) := by
  have room : ∀ i w, RoomFor p (markedIter false).sizeHint i w none w := by
    intro i w
    cases h : p i with
    | none => exact .enough h
    | some g => exact .granted h rfl (hp _ _ _ h)
  exact .more rfl (room _ _) (.more rfl (room _ _) (.finished rfl))

theorem markedIter_breaks (p : RoomPolicy) (hp : Roomy p) (b : Bool) :
    TakesAll p (markedIter true) 0 (0, b) [(7, 'a'), (3, 'b')] (some (.panic "io")) (3, true) := by
  have room : ∀ i w, RoomFor p (markedIter true).sizeHint i w none w := by
    intro i w
    cases h : p i with
    | none => exact .enough h
    | some g => exact .granted h rfl (hp _ _ _ h)
  exact .more rfl (room _ _) (.more rfl (room _ _) (.broke rfl))

/-- An iterator that gives (7, 'a'), (3, 'b') and (7, 'c'); the state is the number of calls. -/
def threeItems : UserIter Nat (Nat × Char) where
  start := fun c => (.ok (), c)
  sizeHint := fun c => (.ok 2, c)
  next := fun c => (.ok ([(7, 'a'), (3, 'b'), (7, 'c')][c]?), c + 1)

theorem threeItems_takes : TakesAll amplyRoom threeItems 0 0 [(7, 'a'), (3, 'b'), (7, 'c')] none 4 :=
  .more rfl (.granted rfl rfl rfl) (.more rfl (.enough rfl) (.more rfl (.enough rfl) (.finished rfl)))

section examples

attribute [local instance] w64

/-- The iterator panics after two items: so does `collect`, and no key has been compared. -/
example (n : Nat) : EndsWith (FzOrderedMap.fromIterE amplyRoom askSort (callMarks n) (markedIter true)) (0, false) (.error (.panic "io")) (3, true) :=
  (c98_collect (.orderedMap amplyRoom askSort (callMarks n) _) _ _ _).2 (.broke rfl (markedIter_breaks _ amplyRoom_roomy false))

/-- An iterator that promises too much: a panic after the first item and the question for the hint. -/
example (ar : Str → Eff Nat Str) (bh : Str → Eff Nat Nat) (st : Sorter (Str × Unit)) :
    EndsWith (FzStringSet.fromIterE smallRoom st ar bh bh (pure ()) (boastful 5000)) 0 (.error (.panic "capacity overflow")) 101 :=
  (c98_collect (.stringSet smallRoom st ar bh bh _ _) _ _ _).2 (.broke rfl (.noRoom rfl (.refused rfl rfl (by decide))))

/-- If it promises little and never ends, `collect` does not end. -/
example (ar : Str → Eff Nat Str) (bh : Str → Eff Nat Nat) (st : Sorter (Str × Unit)) (r : Res (FzStringMap Unit)) (w' : Nat) :
    ¬ EndsWith (FzStringSet.fromIterE smallRoom st ar bh bh (pure ()) (boastful 5)) 0 r w' := by
  rw [c98_collect (.stringSet smallRoom st ar bh bh _ _)]
  have never : ∀ {i w xs r w'}, ¬ TakesAll smallRoom (boastful 5) i w xs r w' := by
    intro i w xs r w' h
    induction h with
    | finished h => cases h
    | broke h => cases h
    | more _ _ _ ih => exact ih
    | @noRoom i w w₁ w' x f h hr =>
      cases hr with
      | broke h h' => cases h'
      | refused h h' hg =>
        cases h'
        unfold smallRoom at h
        split at h
        · cases h; simp at hg
        · cases h
  intro h
  cases h with
  | noIter h => cases h
  | broke h hs => exact never hs
  | noHasher h hs => exact never hs
  | made h hs => exact never hs

/-- A map comes out if comparison number 99 would panic. -/
example : ∃ m w, EndsWith (FzOrderedMap.fromIterE amplyRoom askSort (callMarks 99) (markedIter false)) (0, false) (.ok m) w ∧
    m.entries = [(7, 'a'), (3, 'b')] := by
  refine ⟨⟨[(7, 'a'), (3, 'b')]⟩, (5, false), ⟨5, ?_⟩, rfl⟩
  show FzOrderedMap.fromIterE amplyRoom askSort (callMarks 99) (markedIter false) 5 (0, false) = (.ok (some ⟨[(7, 'a'), (3, 'b')]⟩), (5, false))
  cbv

/-- Whether the iterator breaks, and whichever comparison panics: `collect` panics exactly if one of them did. -/
example (broken : Bool) (n : Nat) {r : Res (EytzingerMap Nat Char)} {w' : Nat × Bool}
    (h : EndsWith (FzOrderedMap.fromIterE amplyRoom askSort (callMarks n) (markedIter broken)) (0, false) r w') : Panics r ↔ w'.2 = true := by
  have ok : ∀ {B : Type} {b : B}, ¬ Panics (.ok b : Res B) := fun ⟨_, h⟩ => by cases h
  have hn : MarksPanics (fun w => w.2 = true) (markedIter broken).next := by
    rintro ⟨c, b⟩ hw
    match c with
    | 0 => exact ⟨fun h => absurd h hw, fun h => absurd h ok⟩
    | 1 => exact ⟨fun h => absurd h hw, fun h => absurd h ok⟩
    | c + 2 =>
      cases broken with
      | true => exact ⟨fun _ => ⟨_, rfl⟩, fun _ => rfl⟩
      | false => exact ⟨fun h => absurd h hw, fun h => absurd h ok⟩
  refine c98_blame (bad := fun w => w.2 = true) (n := 3) (entries := id) (fits := fun _ => True) (.orderedMap amplyRoom askSort (callMarks n) _)
    amplyRoom_roomy (fun w hw => ⟨fun h => absurd h hw, fun h => absurd h ok⟩) (fun w hw => ⟨fun h => absurd h hw, fun h => absurd h ok⟩) hn
    (fun w hw => ⟨fun h => absurd h hw, fun h => absurd h ok⟩)
    (fun xs _ => .ordered askSort_ok natCmp_lawful natCmp_query (callMarks_marks n)) (by decide) ?_ h
  intro xs u hs
  refine ⟨?_, trivial⟩
  cases broken with
  | true => cases (hs.unique (markedIter_breaks _ amplyRoom_roomy false)).2.1
  | false =>
    rw [(hs.unique (markedIter_takes _ amplyRoom_roomy false)).1]
    decide

/-- A conversion that panics at the number 3 and otherwise adds to the state: two keys were converted, and nothing is hashed. -/
example (sort : Sorter (Str × Char)) (bh : Str → Eff Nat Nat) :
    FzStringMap.withHasherAsE sort (fun s : Nat => fun w => if s = 3 then (.error (.panic "as_ref"), w) else (.ok [s.toUInt8], w + s)) bh bh
      [(7, 'a'), (8, 'b'), (3, 'c'), (9, 'd')] 0 = (.error (.panic "as_ref"), 15) := by
  exact (c98_string_keys _ _ _ _ _ _ _ _).2 (.inl ⟨_, .later rfl (.later rfl (.broke rfl)), rfl⟩)

/-- A string map from numbers whose conversion panics at call `n`: if it comes out, it is the right one. -/
example (sort : Sorter (Str × Char)) (hso : SorterOk sort) (n : Nat) {w' : Nat} {m : FzStringMap Char}
    (h : EndsWith (FzStringMap.fromIterE amplyRoom sort
      (fun s : Nat => fun c => if c = n then (.error (.panic "as_ref"), c) else (.ok [s.toUInt8], c + 1))
      (fun s c => (.ok s.length, c)) (fun s c => (.ok s.length, c)) (pure ()) threeItems) 0 (.ok m) w') :
    Lookups (FzStringMap.impl (fun s => s.length) (fun s => s.length)) m (fun a b : Str => a == b) [([7], 'a'), ([3], 'b'), ([7], 'c')] := by
  obtain ⟨xs, u, hs, hm⟩ := c98_result (.stringMap amplyRoom sort _ _ _ _ _) (n := sizeLimit)
    (entries := fun xs => xs.map fun e => ([e.1.toUInt8], e.2)) (fits := fun _ => True)
    (fun xs hl => .fzStringAs (bhStr := fun s => s.length) (bhSlice := fun s => s.length) (text := fun s => [s.toUInt8]) hso hl
      (fun s c => by by_cases h : c = n <;> simp [h, Panics]) (fun s c => .inr rfl) (fun s c => .inr rfl)) h
  obtain ⟨rfl, -, -⟩ := hs.unique threeItems_takes
  exact (hm (by decide)).2.1

/-- Whichever comparison panics, a map that comes out is the right one. -/
example (n : Nat) {m : EytzingerMap Nat Char} {c : Nat}
    (h : EndsWith (FzOrderedMap.fromIterE amplyRoom askSort (callPanics n) threeItems) 0 (.ok m) c) :
    Lookups (EytzingerMap.impl natCmp) m (fun q k => natCmp q k == .eq) [(7, 'a'), (3, 'b'), (7, 'c')] := by
  obtain ⟨xs, u, hs, hm⟩ := c98_result (.orderedMap amplyRoom askSort (callPanics n) _) (n := 4) (entries := id) (fits := fun _ => True)
    (fun xs _ => .ordered askSort_ok natCmp_lawful natCmp_query (callPanics_honest n)) h
  obtain ⟨rfl, -, -⟩ := hs.unique threeItems_takes
  exact (hm (by decide)).2.1

/-- A comparison that contradicts itself and panics does no harm either. -/
example {r : Res (EytzingerMap Nat Char)} {c : Nat}
    (h : EndsWith (FzOrderedMap.fromIterE smallRoom askSort fickleOrd threeItems) 0 r c) : NoUb r := by
  refine (c98_memory_safe (I := EytzingerMap.impl natCmp) (safe := some) (n := 5) (.orderedMap smallRoom askSort fickleOrd _) ?_ ?_ ?_ ?_
    (fun xs _ => .ordered natCmp askSort_safe ?_) ?_ h).1
  · exact fun _ _ h => by cases h
  · exact fun _ _ h => by cases h
  · exact fun _ _ h => by cases h
  · exact fun _ _ h => by cases h
  · intro a b c what h
    unfold fickleOrd at h
    simp only at h
    split at h <;> cases h
  · have hl : ∀ {i w xs r u}, TakesAll smallRoom threeItems i w xs r u → xs.length ≤ 3 - w := by
      intro i w xs r u hs
      induction hs with
      | finished h => simp
      | broke h => cases h
      | noRoom h hr => simp
      | @more i w w₁ w₂ w' x xs r h hr hs ih =>
        have h2 : w₁ = w + 1 := (congrArg Prod.snd h).symm
        have h3 : w < 3 := by
          by_contra hc
          obtain ⟨k, rfl⟩ : ∃ k, w = k + 3 := ⟨w - 3, by omega⟩
          cases h
        have h4 : w₂ = w₁ := by
          cases hr with
          | enough h => rfl
          | granted h hh hg => exact (congrArg Prod.snd hh).symm
        rw [List.length_cons]
        omega
    intro w xs u hs
    have := hl hs
    omega

end examples

end Frozen.Props
