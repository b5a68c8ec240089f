import Verif.Lemmas.EffectSerde
import Verif.Props.EffectBuild
import Verif.Props.Serde

/-! # C97: storing and restoring collections with code that fails, panics and has effects -/

namespace Frozen.Props

open Frozen Frozen.Spec Frozen.Model

variable {W E O A M M' Q K V T : Type}

/-! ## Serialization -/

/-- **C97** Serializing a map, with any serializer in any state: it is told the number of entries, given the entries in the order of iteration, and told that this
is all; the first of these calls that fails or panics ends it, and nothing else is done. -/
theorem c97_serialize_map [Target] {eqK : K → K → Bool} {mt : Q → K → Bool} {es : List (K × V)} {I : MapImpl M Q K V} {m : M} (hb : Built eqK mt es I m)
    (z : SerializerE W E O (K × V)) (w w' : W) (r : Res (Except E O)) :
    I.serializeE z m w = (r, w') ↔
      Performed z.finish (z.start (some (I.entries m).length) :: (I.entries m).map z.item) w r w' := by
  obtain ⟨Inv, F⟩ := hb.facts
  have hi : I.serializeE z m w = serializeAllE z (I.entries m).length (I.entries m) w := by
    unfold MapImpl.serializeE
    rw [F.lawful.len m F.inv]
    rfl
  rw [hi]
  constructor
  · intro hr
    have h' := serializeAllE_spec z (I.entries m).length (I.entries m) w
    rwa [hr] at h'
  · intro hp
    obtain ⟨h1, h2⟩ := (serializeAllE_spec z (I.entries m).length (I.entries m) w).unique hp
    exact Prod.ext h1 h2

/-- **C97** Likewise for sets. -/
theorem c97_serialize_set [Target] {eqT : T → T → Bool} {mt : Q → T → Bool} {xs : List T} {I : SetImpl M Q T} {m : M} (hb : BuiltSet eqT mt xs I m)
    (z : SerializerE W E O T) (w w' : W) (r : Res (Except E O)) :
    I.serializeE z m w = (r, w') ↔ Performed z.finish (z.start (some (I.items m).length) :: (I.items m).map z.item) w r w' := by
  obtain ⟨-, -, hs⟩ := hb.spec
  have hi : I.serializeE z m w = serializeAllE z (I.items m).length (I.items m) w := by
    unfold SetImpl.serializeE
    rw [hs.len]
  rw [hi]
  constructor
  · intro hr
    have h' := serializeAllE_spec z (I.items m).length (I.items m) w
    rwa [hr] at h'
  · intro hp
    obtain ⟨h1, h2⟩ := (serializeAllE_spec z (I.items m).length (I.items m) w).unique hp
    exact Prod.ext h1 h2

/-! ## Deserialization -/

section

variable [Target] {x : Nat → Eff W (Option (Except E M))} {size : Nat} {acc : AccessE W E A} {dflt : Eff W Unit} {build : List A → Eff W M}

/-- **C97** Deserializing any of the eight types ends in a state with an outcome if and only if it should: the source is asked for a size, then for items until it
has no more; then hasher and collection are made, from all items.  An error of the source is returned and a panic passed on, without a
collection being made of some of the items. -/
theorem c97_deserialize (h : Deserializer x size acc dflt build) (w w' : W) (r : Res (Except E M)) :
    EndsWith x w r w' ↔ Restores size acc dflt build w r w' := by
  rw [endsWith_iff]
  constructor
  · rintro ⟨fuel, hf⟩
    rcases h.cases' fuel w with h' | ⟨r', h', h''⟩
    · rw [hf] at h'
      exact absurd h' (withFuel_ne r)
    · rw [hf] at h' h''
      cases r <;> cases r' <;> cases h'' <;> exact h'
  · exact h.of

/-- **C97** It ends in one way only. -/
theorem c97_one_outcome (h : Deserializer x size acc dflt build) {w w₁ w₂ : W} {r₁ r₂ : Res (Except E M)} (h₁ : EndsWith x w r₁ w₁)
    (h₂ : EndsWith x w r₂ w₂) : r₁ = r₂ ∧ w₁ = w₂ :=
  ((c97_deserialize h _ _ _).1 h₁).unique ((c97_deserialize h _ _ _).1 h₂)

/-- **C97** If functions of keys answer lawfully or panic, a collection that is returned is the right one for the items of the source, all of
them.  (`entries` makes entries of items, with the value `()` for sets.) -/
theorem c97_result (h : Deserializer x size acc dflt build) {eqK : K → K → Bool} {mt : Q → K → Bool} {I : MapImpl M Q K V} {entries : List A → List (K × V)}
    {n : Nat} {fits : List A → Prop}
    (hc : ∀ xs, xs.length < n → ConstructsWith (fun _ x a => PanicsOr x (.ok a)) eqK mt (entries xs) I (build xs) some (fits xs)) {w w' : W} {m : M}
    (hr : EndsWith x w (.ok (.ok m)) w') :
    ∃ xs u, Supplies acc.next (acc.sizeHint w).2 xs .finished u ∧
      (xs.length < n → Built eqK mt (entries xs) I m ∧ Lookups I m mt (entries xs) ∧ Contents I m eqK (entries xs)) := by
  have hr := (c97_deserialize h _ _ _).1 hr
  cases hr with
  | built h1 hn hs hd hb =>
    refine ⟨_, _, by rw [h1]; exact hs, fun hl => ?_⟩
    exact (c93_map_or_panic (hc _ hl) _).1 m m (by rw [hb]) rfl

/-- **C97** Storing a map and restoring it from a source that supplies what was stored: if a map comes out, it has the contents of the one that was stored, whatever
code panicked or changed the program on the way. -/
theorem c97_round_trip {eqK : K → K → Bool} {mt : Q → K → Bool} {es : List (K × V)} {I : MapImpl M' Q K V} {m : M'} (hb : Built eqK mt es I m)
    {acc : AccessE W E (K × V)} {build : List (K × V) → Eff W M} (h : Deserializer x size acc dflt build) {J : MapImpl M Q K V} {fits : Prop}
    (hc : ConstructsWith (fun _ x a => PanicsOr x (.ok a)) eqK mt (I.entries m) J (build (I.entries m)) some fits) {w u w' : W}
    (hs : Supplies acc.next (acc.sizeHint w).2 (I.entries m) .finished u) {m' : M} (hr : EndsWith x w (.ok (.ok m')) w') : SameMap I m J m' := by
  have hr := (c97_deserialize h _ _ _).1 hr
  cases hr with
  | built h1 hn hs' hd hb' =>
    rw [h1] at hs
    obtain ⟨rfl, -, -⟩ := hs.unique hs'
    exact same_of_built hb ((c93_map_or_panic hc _).1 m' m' (by rw [hb']) rfl).1

omit [Target] in
theorem Supplies.marks {next : Eff W (Except E (Option A))} {bad : W → Prop} (hn : MarksPanics bad next) {w w' : W} {xs : List A} {e : Ending E}
    (h : Supplies next w xs e w') : ¬ bad w → (bad w' ↔ ∃ msg, e = .broke (.panic msg)) := by
  induction h with
  | finished h =>
    intro hw
    have := hn _ hw
    rw [h] at this
    exact this.trans ⟨fun ⟨_, h⟩ => (by cases h), fun ⟨_, h⟩ => (by cases h)⟩
  | failed h =>
    intro hw
    have := hn _ hw
    rw [h] at this
    exact this.trans ⟨fun ⟨_, h⟩ => (by cases h), fun ⟨_, h⟩ => (by cases h)⟩
  | broke h =>
    intro hw
    have := hn _ hw
    rw [h] at this
    exact this.trans ⟨fun ⟨msg, h⟩ => ⟨msg, by cases h; rfl⟩, fun ⟨msg, h⟩ => ⟨msg, by cases h; rfl⟩⟩
  | more h _ ih =>
    intro hw
    refine ih (fun hb => ?_)
    have := (hn _ hw).1 (by rw [h]; exact hb)
    rw [h] at this
    obtain ⟨_, h⟩ := this
    cases h

/-- **C97** If the state of the program records whether user code (the source, `Default` of the hasher, functions of keys) has panicked, and the size announced is not
absurd: deserializing panics if and only if user code has panicked during it. -/
theorem c97_blame (h : Deserializer x size acc dflt build) {bad : W → Prop} (h1 : MarksPanics bad acc.sizeHint) (h2 : MarksPanics bad acc.next)
    (h3 : MarksPanics bad dflt) {eqK : K → K → Bool} {mt : Q → K → Bool} {I : MapImpl M Q K V} {entries : List A → List (K × V)} {n : Nat}
    {fits : List A → Prop}
    (hc : ∀ xs, xs.length < n → ConstructsWith (fun _ x a => Marks bad x (.ok a)) eqK mt (entries xs) I (build xs) some (fits xs)) {w : W}
    (hw : ¬ bad w) (hsize : ∀ k, (acc.sizeHint w).1 = .ok k → k.getD 0 * size < allocLimit)
    (hfit : ∀ xs u, Supplies acc.next (acc.sizeHint w).2 xs .finished u → xs.length < n ∧ fits xs) {w' : W} {r : Res (Except E M)}
    (hr : EndsWith x w r w') : Panics r ↔ bad w' := by
  have hr := (c97_deserialize h _ _ _).1 hr
  have h1 := h1 w hw
  have noBad : ∀ {B : Type} {y : Eff W B} {u u' : W} {b : B}, MarksPanics bad y → ¬ bad u → y u = (.ok b, u') → ¬ bad u' := by
    intro B y u u' b hy hu hyu hb
    have := (hy u hu).1 (by rw [hyu]; exact hb)
    rw [hyu] at this
    obtain ⟨_, h⟩ := this
    cases h
  have toErr : ∀ {B : Type} {f : Fault}, Panics (.error f : Res B) ↔ Panics (.error f : Res (Except E M)) := fun {B f} =>
    ⟨fun ⟨msg, h⟩ => ⟨msg, by cases h; rfl⟩, fun ⟨msg, h⟩ => ⟨msg, by cases h; rfl⟩⟩
  have okNot : ∀ {B : Type} {b : B}, ¬ Panics (.ok b : Res B) := fun ⟨_, h⟩ => by cases h
  have step : ∀ {u : W} {k : Option Nat}, acc.sizeHint w = (.ok k, u) → ¬ bad u := by
    intro u k hk hb
    rw [hk] at h1
    exact okNot (h1.1 hb)
  cases hr with
  | noHint hk => rw [hk] at h1; exact (toErr.symm.trans h1.symm)
  | tooMany hk hn => exact absurd (hsize _ (by rw [hk])) (by omega)
  | failed hk hn hs =>
    have := hs.marks h2 (step hk)
    exact ⟨fun hp => absurd hp okNot, fun hb => by obtain ⟨_, h⟩ := this.1 hb; cases h⟩
  | broke hk hn hs =>
    have := hs.marks h2 (step hk)
    exact ⟨fun ⟨msg, h⟩ => this.2 ⟨msg, by cases h; rfl⟩, fun hb => by obtain ⟨msg, h⟩ := this.1 hb; cases h; exact ⟨msg, rfl⟩⟩
  | noHasher hk hn hs hd =>
    have hu : ¬ bad _ := fun hb => by obtain ⟨_, h⟩ := (hs.marks h2 (step hk)).1 hb; cases h
    have := h3 _ hu
    rw [hd] at this
    exact toErr.symm.trans this.symm
  | notBuilt hk hn hs hd hb =>
    have hu : ¬ bad _ := fun hb => by obtain ⟨_, h⟩ := (hs.marks h2 (step hk)).1 hb; cases h
    obtain ⟨hl, hf⟩ := hfit _ _ (by rw [hk]; exact hs)
    rcases c93_blame (hc _ hl) hf _ (noBad h3 hu hd) with ⟨h1, h2⟩ | ⟨-, a, m, h2, -⟩
    · rw [hb] at h1 h2
      exact ⟨fun _ => h1, fun _ => toErr.1 h2⟩
    · rw [hb] at h2
      cases h2
  | built hk hn hs hd hb =>
    have hu : ¬ bad _ := fun hb => by obtain ⟨_, h⟩ := (hs.marks h2 (step hk)).1 hb; cases h
    obtain ⟨hl, hf⟩ := hfit _ _ (by rw [hk]; exact hs)
    rcases c93_blame (hc _ hl) hf _ (noBad h3 hu hd) with ⟨-, h2⟩ | ⟨h1, -⟩
    · rw [hb] at h2
      exact absurd h2 okNot
    · rw [hb] at h1
      exact ⟨fun hp => absurd hp okNot, fun hb => absurd hb h1⟩

omit [Target] in
theorem Supplies.safe {next : Eff W (Except E (Option A))} (hn : SafeCode next) {w w' : W} {xs : List A} {e : Ending E} (h : Supplies next w xs e w') :
    ∀ what, e ≠ .broke (.ub what) := by
  induction h with
  | finished h => exact fun _ h => by cases h
  | failed h => exact fun _ h => by cases h
  | @broke w w' f h =>
    intro what hf
    cases hf
    exact hn w what (by rw [h])
  | more _ _ ih => exact ih

/-- **C97** Whatever the source, the hasher and the functions of keys do, as long as they are safe code: deserializing does not run into undefined behaviour, and the
map it returns (dense scalar maps apart, see C51) can be used without any, also after stores into it. -/
theorem c97_memory_safe (h : Deserializer x size acc dflt build) (h1 : SafeCode acc.sizeHint) (h2 : SafeCode acc.next) (h3 : SafeCode dflt)
    {I : MapImpl M Q K V} {safe : M → Option M} {n : Nat} (hc : ∀ xs : List A, xs.length < n → AnyConstructor I (build xs) safe)
    (hlen : ∀ w xs u, Supplies acc.next w xs .finished u → xs.length < n) {w w' : W} {r : Res (Except E M)} (hr : EndsWith x w r w') :
    NoUb r ∧ ∀ a m m', r = .ok (.ok a) → safe a = some m → Stores I m m' → MemSafe I m' := by
  have hr := (c97_deserialize h _ _ _).1 hr
  have fault : ∀ {f : Fault}, (∀ what, f ≠ .ub what) →
      NoUb (.error f : Res (Except E M)) ∧ ∀ a m m', (.error f : Res (Except E M)) = .ok (.ok a) → safe a = some m → Stores I m m' → MemSafe I m' :=
    fun hf => ⟨fun what h => hf what (by cases h; rfl), fun _ _ _ h => by cases h⟩
  cases hr with
  | noHint hk => exact fault fun what hf => h1 w what (by rw [hk, hf])
  | tooMany hk hn => exact fault fun what hf => by cases hf
  | failed hk hn hs => exact ⟨NoUb.ok _, fun _ _ _ h => by cases h⟩
  | broke hk hn hs => exact fault fun what hf => hs.safe h2 what (by rw [hf])
  | noHasher hk hn hs hd => exact fault fun what hf => h3 _ what (by rw [hd, hf])
  | notBuilt hk hn hs hd hb => exact fault fun what hf => c93_constructors_safe (hc _ (hlen _ _ _ hs)) _ what (by rw [hb, hf])
  | built hk hn hs hd hb =>
    refine ⟨NoUb.ok _, fun a m m' ha hm hst => ?_⟩
    cases ha
    exact c93_results_safe (hc _ (hlen _ _ _ hs)) (by rw [hb]) hm hst

end

/-! ## Examples -/

/-- A source whose state is the number of calls made so far.  It gives (7, 'a'), (3, 'b') and (7, 'c'), and ends as `last` says. -/
def threeEntries (last : Res (Except String (Option (Nat × Char)))) : AccessE Nat String (Nat × Char) where
  sizeHint := fun c => (.ok (some 2), c)
  next := fun c => (match c with
    | 0 => .ok (.ok (some (7, 'a')))
    | 1 => .ok (.ok (some (3, 'b')))
    | 2 => .ok (.ok (some (7, 'c')))
    | _ => last, c + 1)

/-- A serializer that records what it is told and refuses the entry with key `k`, or panics at it. -/
def recording (k : Nat) (e : Res (Except String Unit)) : SerializerE (List (SerCall (Nat × Char))) String Nat (Nat × Char) where
  start := fun n w => (.ok (.ok ()), w ++ [.start n])
  item := fun a w => if a.1 = k then (e, w) else (.ok (.ok ()), w ++ [.item a])
  finish := fun w => (.ok (.ok w.length), w ++ [.finish])

/-- A source that reads from a list; its state is the position. -/
def listSource (l : List A) : AccessE Nat String A where
  sizeHint := fun c => (.ok none, c)
  next := fun c => (.ok (.ok l[c]?), c + 1)

/-- A source that gives (7, 'a') and (3, 'b') and then panics if `broken` is set; the state has the number of calls and whether something panicked. -/
def markedSource (broken : Bool) : AccessE (Nat × Bool) String (Nat × Char) where
  sizeHint := fun w => (.ok (some 2), w)
  next := fun w => match w.1 with
    | 0 => (.ok (.ok (some (7, 'a'))), (1, w.2))
    | 1 => (.ok (.ok (some (3, 'b'))), (2, w.2))
    | c => if broken then (.error (.panic "io"), (c + 1, true)) else (.ok (.ok none), (c + 1, w.2))

section examples

attribute [local instance] w64

/-- The source ends with an error: that error is returned after four calls, and no map is made. -/
example (n : Nat) : EndsWith (FzOrderedMap.visitMapE 16 askSort (callPanics n) (threeEntries (.ok (.error "end of file")))) 0
    (.ok (.error "end of file")) 4 :=
  (c97_deserialize (.orderedMap 16 askSort (callPanics n) _) _ _ _).2
    (.failed (n := some 2) rfl (by decide) (.more rfl (.more rfl (.more rfl (.failed rfl)))))

/-- The source panics: so does the call. -/
example (n : Nat) : EndsWith (FzOrderedMap.visitMapE 16 askSort (callPanics n) (threeEntries (.error (.panic "lost connection")))) 0
    (.error (.panic "lost connection")) 4 :=
  (c97_deserialize (.orderedMap 16 askSort (callPanics n) _) _ _ _).2
    (.broke (n := some 2) rfl (by decide) (.more rfl (.more rfl (.more rfl (.broke rfl)))))

/-- The source ends well and comparison number 99 would panic: a map comes out. -/
example : ∃ m c, EndsWith (FzOrderedMap.visitMapE 16 askSort (callPanics 99) (threeEntries (.ok (.ok none)))) 0 (.ok (.ok m)) c ∧
    m.entries = [(7, 'c'), (3, 'b')] := by
  refine ⟨⟨[(7, 'c'), (3, 'b')]⟩, 9, ⟨5, ?_⟩, rfl⟩
  show FzOrderedMap.visitMapE 16 askSort (callPanics 99) (threeEntries (.ok (.ok none))) 5 0 = (.ok (some (.ok ⟨[(7, 'c'), (3, 'b')]⟩)), 9)
  cbv

/-- Whichever comparison panics, a map that comes out is the right one. -/
example (n : Nat) {m : EytzingerMap Nat Char} {c : Nat}
    (h : EndsWith (FzOrderedMap.visitMapE 16 askSort (callPanics n) (threeEntries (.ok (.ok none)))) 0 (.ok (.ok m)) c) :
    Lookups (EytzingerMap.impl natCmp) m (fun q k => natCmp q k == .eq) [(7, 'a'), (3, 'b'), (7, 'c')] := by
  obtain ⟨xs, u, hs, hm⟩ := c97_result (.orderedMap 16 askSort (callPanics n) _) (n := 4) (entries := id) (fits := fun _ => True)
    (fun xs _ => .ordered askSort_ok natCmp_lawful natCmp_query (callPanics_honest n)) h
  obtain ⟨rfl, -, -⟩ := hs.unique (.more rfl (.more rfl (.more rfl (.finished rfl))) : Supplies (threeEntries (.ok (.ok none))).next 0 [(7, 'a'), (3, 'b'), (7, 'c')] .finished 4)
  exact (hm (by decide)).2.1

/-- A comparison that contradicts itself and panics does no harm either. -/
example {r : Res (Except String (EytzingerMap Nat Char))} {c : Nat}
    (h : EndsWith (FzOrderedMap.visitMapE 16 askSort fickleOrd (threeEntries (.ok (.ok none)))) 0 r c) : NoUb r := by
  refine (c97_memory_safe (I := EytzingerMap.impl natCmp) (safe := some) (n := 5) (.orderedMap 16 askSort fickleOrd _) ?_ ?_ ?_
    (fun xs _ => .ordered natCmp askSort_safe ?_) ?_ h).1
  · exact fun _ _ h => by cases h
  · intro c what h
    match c with
    | 0 => cases h
    | 1 => cases h
    | 2 => cases h
    | c + 3 => cases h
  · exact fun _ _ h => by cases h
  · intro a b c what h
    unfold fickleOrd at h
    simp only at h
    split at h <;> cases h
  · intro w xs u hs
    have hl : ∀ {w xs u}, Supplies (threeEntries (.ok (.ok none))).next w xs .finished u → xs.length ≤ 3 - w := by
      intro w xs u hs
      generalize he : Ending.finished = e at hs
      induction hs with
      | finished h => simp
      | failed h => cases he
      | broke h => cases he
      | @more w w₁ w' x xs r h hs ih =>
        have ih := ih he
        have h2 : w₁ = w + 1 := (congrArg Prod.snd h).symm
        have h3 : w < 3 := by
          by_contra hc
          obtain ⟨k, rfl⟩ : ∃ k, w = k + 3 := ⟨w - 3, by omega⟩
          cases h
        rw [List.length_cons]
        omega
    have := hl hs
    omega

/-- Storing the map of 3 and 7 in a store that refuses 7. -/
example : (ScanMap.impl natEq).serializeE (recording 7 (.ok (.error "full"))) (ScanMap.new natEq [(3, 'b'), (7, 'c')]) [] =
    (.ok (.error "full"), [.start (some 2), .item (3, 'b')]) := by
  rw [c97_serialize_map (.scan natEq_lawful (LawfulEq'.query natEq_lawful))]
  exact .step rfl (.step rfl (.failed rfl))

/-- A map stored as (3, 'b'), (7, 'c') is restored as an ordered map, unless a comparison panics. -/
example (n : Nat) {m : EytzingerMap Nat Char} {c : Nat}
    (h : EndsWith (FzOrderedMap.visitMapE 16 askSort (callPanics n) (listSource [(3, 'b'), (7, 'c')])) 0 (.ok (.ok m)) c) :
    SameMap (ScanMap.impl (fun q k => natCmp q k == .eq)) (ScanMap.new (fun a b => natCmp a b == .eq) [(7, 'a'), (3, 'b'), (7, 'c')])
      (EytzingerMap.impl natCmp) m := by
  refine c97_round_trip (fits := True) (.scan (LawfulCmp'.eqLawful natCmp_lawful) (LawfulEq'.query (LawfulCmp'.eqLawful natCmp_lawful)))
    (.orderedMap 16 askSort (callPanics n) _) (.ordered askSort_ok natCmp_lawful natCmp_query (callPanics_honest n)) (u := 3) ?_ h
  have he : (ScanMap.impl (fun q k => natCmp q k == .eq)).entries (ScanMap.new (fun a b => natCmp a b == .eq) [(7, 'a'), (3, 'b'), (7, 'c')]) =
      [(3, 'b'), (7, 'c')] := by cbv
  rw [he]
  exact .more rfl (.more rfl (.finished rfl))

/-- Whether the source breaks, and whichever comparison panics: the call panics exactly if one of them did. -/
example (broken : Bool) (n : Nat) {r : Res (Except String (EytzingerMap Nat Char))} {w' : Nat × Bool}
    (h : EndsWith (FzOrderedMap.visitMapE 16 askSort (callMarks n) (markedSource broken)) (0, false) r w') : Panics r ↔ w'.2 = true := by
  have ok : ∀ {B : Type} {b : B}, ¬ Panics (.ok b : Res B) := fun ⟨_, h⟩ => by cases h
  have hn : MarksPanics (fun w => w.2 = true) (markedSource broken).next := by
    rintro ⟨c, b⟩ hw
    match c with
    | 0 => exact ⟨fun h => absurd h hw, fun h => absurd h ok⟩
    | 1 => exact ⟨fun h => absurd h hw, fun h => absurd h ok⟩
    | c + 2 =>
      cases broken with
      | true => exact ⟨fun _ => ⟨_, rfl⟩, fun _ => rfl⟩
      | false => exact ⟨fun h => absurd h hw, fun h => absurd h ok⟩
  refine c97_blame (bad := fun w => w.2 = true) (n := 3) (entries := id) (fits := fun _ => True) (.orderedMap 16 askSort (callMarks n) _)
    (fun w hw => ⟨fun h => absurd h hw, fun h => absurd h ok⟩) hn (fun w hw => ⟨fun h => absurd h hw, fun h => absurd h ok⟩)
    (fun xs _ => .ordered askSort_ok natCmp_lawful natCmp_query (callMarks_marks n)) (by decide) (fun k hk => by cases hk; decide) ?_ h
  intro xs u hs
  refine ⟨?_, trivial⟩
  cases broken with
  | true =>
    have := hs.unique (.more rfl (.more rfl (.broke rfl)) : Supplies (markedSource true).next (0, false) [(7, 'a'), (3, 'b')] (.broke (.panic "io")) (3, true))
    cases this.2.1
  | false =>
    have := hs.unique (.more rfl (.more rfl (.finished rfl)) : Supplies (markedSource false).next (0, false) [(7, 'a'), (3, 'b')] .finished (3, false))
    rw [this.1]
    decide

/-- Storing the set of 3 and 7 in a store that panics at 3: 7, which comes first, has been stored. -/
example : (inlineSetImpl (ScanMap.impl natEq)).serializeE (W := List Nat) (E := String) (O := Unit)
    ⟨fun _ w => (.ok (.ok ()), w), fun a w => if a = 3 then (.error (.panic "full"), w) else (.ok (.ok ()), w ++ [a]), fun w => (.ok (.ok ()), w)⟩
    (ScanMap.new natEq (unitEntries [3, 7, 3])) [] = (.error (.panic "full"), [7]) := by
  rw [c97_serialize_set (.ofMap (.scan natEq_lawful (LawfulEq'.query natEq_lawful)))]
  exact .step rfl (.step rfl (.broke rfl))

end examples

end Frozen.Props
