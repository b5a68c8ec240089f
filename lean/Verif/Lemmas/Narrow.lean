import Verif.Lemmas.Portable
import Verif.Lemmas.Target

/-! # Lemmas: compiling the same expression on two targets -/

namespace Frozen.Model

open Frozen Frozen.Spec Frozen.Props

variable {K V : Type} {t t' : Target}

theorem litAs_eq {ty : String} {a b n : Nat} {tok : Tok} (h : NumLit ty a tok n) (hn : n ≤ b) : litAs ty b tok = litAs ty a tok := by
  rw [numLit_iff.2 h]
  obtain ⟨suf, h1, h2, -⟩ := h
  exact numLit_iff.2 ⟨suf, h1, h2, hn⟩

theorem litUsize_narrow {tok : Tok} (h : ∃ n, @UsizeLit t tok n) (h' : ∃ n, NumLit "usize" (2 ^ t'.width - 1) tok n) :
    @litUsize t' tok = @litUsize t tok := by
  obtain ⟨n, h⟩ := h
  obtain ⟨n', suf', h1', -, h3'⟩ := h'
  refine litAs_eq h ?_
  obtain ⟨suf, h1, -⟩ := h
  rw [h1] at h1'
  cases h1'
  exact h3'

theorem arrayLen_narrow {α : Type} {tok : Tok} (xs : List α) (h : ∃ n, @UsizeLit t tok n) (h' : ∃ n, NumLit "usize" (2 ^ t'.width - 1) tok n) :
    @arrayLen t' α tok xs = @arrayLen t α tok xs := by
  unfold arrayLen
  rw [litUsize_narrow h h']

theorem litMag_narrow {cm : Magnitude} {tok : Tok} {v : Nat} (h : @MagLit t cm tok v) (hv : v ≤ @usizeMax t') :
    @litMag t' cm tok = @litMag t cm tok := by
  cases cm with
  | large => exact litAs_eq h hv
  | small => rfl
  | medium => rfl

theorem litMags_narrow {cm : Magnitude} : ∀ {ts : List Tok}, (∀ tok ∈ ts, ∃ v, @MagLit t cm tok v ∧ v ≤ @usizeMax t') →
    @litMags t' cm ts = @litMags t cm ts
  | [], _ => rfl
  | tok :: ts, h => by
    obtain ⟨v, h1, h2⟩ := h tok List.mem_cons_self
    unfold litMags
    rw [litMag_narrow h1 h2, litMags_narrow (fun x hx => h x (List.mem_cons_of_mem _ hx))]

theorem litSlots_narrow {cm : Magnitude} : ∀ {ts : List (Tok × Tok)},
    (∀ s ∈ ts, ∃ a b, @MagLit t cm s.1 a ∧ @MagLit t cm s.2 b ∧ a ≤ @usizeMax t' ∧ b ≤ @usizeMax t') →
    @litSlots t' cm ts = @litSlots t cm ts
  | [], _ => rfl
  | tok :: ts, h => by
    obtain ⟨a, b, h1, h2, h3, h4⟩ := h tok List.mem_cons_self
    unfold litSlots
    rw [litMag_narrow h1 h3, litMag_narrow h2 h4, litSlots_narrow (fun x hx => h x (List.mem_cons_of_mem _ hx))]

theorem HasherTok.eval_narrow {h : HasherTok} (ht : @HasherTyped t h)
    (hf : ∀ tok ∈ usizeToks.hasherToks h, ∃ n, NumLit "usize" (2 ^ t'.width - 1) tok n) : @HasherTok.eval t' h = @HasherTok.eval t h := by
  cases h with
  | bridge seed => rfl
  | scalar => rfl
  | length => rfl
  | left a b s =>
    obtain ⟨x, y, n, h1, h2, -, -⟩ := ht
    unfold HasherTok.eval
    simp only [litUsize_narrow ⟨x, h1⟩ (hf a (by simp [usizeToks.hasherToks])), litUsize_narrow ⟨y, h2⟩ (hf b (by simp [usizeToks.hasherToks]))]
  | right a b s =>
    obtain ⟨x, y, n, h1, h2, -, -⟩ := ht
    unfold HasherTok.eval
    simp only [litUsize_narrow ⟨x, h1⟩ (hf a (by simp [usizeToks.hasherToks])), litUsize_narrow ⟨y, h2⟩ (hf b (by simp [usizeToks.hasherToks]))]

theorem len_narrow {tok : Tok} {n : Nat} (h : @UsizeLit t tok n) (h' : ∃ n, NumLit "usize" (2 ^ t'.width - 1) tok n) : n ≤ @usizeMax t' := by
  obtain ⟨n', suf', h1', -, h3'⟩ := h'
  obtain ⟨suf, h1, -⟩ := h
  rw [h1] at h1'
  cases h1'
  exact h3'

/-- An expression that is well typed on one target means the same on another, if its `usize` literals fit. -/
theorem Emitted.compile_narrow {F : Type} {eqK : K → K → Bool} {cmp : K → K → Ordering} {fz : FzKind → List (K × V) → Option (Res F)}
    {e : Emitted K V} (hw : @WellTyped t K V e) (hf : FitsTarget t'.width e) :
    @Emitted.compile K V F t' eqK cmp fz e = @Emitted.compile K V F t eqK cmp fz e := by
  have fit : ∀ tok ∈ usizeToks e, ∃ n, NumLit "usize" (2 ^ t'.width - 1) tok n := hf
  cases e with
  | scanRaw len es =>
    simp only [Emitted.compile, arrayLen_narrow es ⟨_, hw⟩ (fit len (by simp [usizeToks]))]
  | scanNew len es =>
    simp only [Emitted.compile, litUsize_narrow ⟨_, hw⟩ (fit len (by simp [usizeToks]))]
  | eytzingerRaw len es =>
    simp only [Emitted.compile, arrayLen_narrow es ⟨_, hw⟩ (fit len (by simp [usizeToks]))]
  | eytzingerNew len es =>
    have hport : ∀ n, @InlineMap.eytzingerNew K V t' n cmp es = @InlineMap.eytzingerNew K V t n cmp es := by
      intro n
      unfold InlineMap.eytzingerNew
      rw [eytzingerLayout_port (t := t') (t' := t)]
    simp only [Emitted.compile, litUsize_narrow ⟨_, hw⟩ (fit len (by simp [usizeToks])), hport]
  | dense len es mn mx =>
    obtain ⟨h1, a, b, h2, h3, -⟩ := hw
    simp only [Emitted.compile, arrayLen_narrow es ⟨_, h1⟩ (fit len (by simp [usizeToks])), litUsize_narrow ⟨_, h2⟩ (fit mn (by simp [usizeToks])),
      litUsize_narrow ⟨_, h3⟩ (fit mx (by simp [usizeToks]))]
  | sparse len ns cm es lookup mn mx =>
    obtain ⟨h1, h2, h3, a, b, h4, h5, -⟩ := hw
    have hl := len_narrow h1 (fit len (by simp [usizeToks]))
    simp only [Emitted.compile, arrayLen_narrow es ⟨_, h1⟩ (fit len (by simp [usizeToks])),
      arrayLen_narrow lookup ⟨_, h2⟩ (fit ns (by simp [usizeToks])), litUsize_narrow ⟨_, h4⟩ (fit mn (by simp [usizeToks])),
      litUsize_narrow ⟨_, h5⟩ (fit mx (by simp [usizeToks])),
      litMags_narrow (fun tok ht => (h3 tok ht).imp fun v h => ⟨h.1, Nat.le_trans h.2 hl⟩)]
  | hash len ns cm slots es hasher =>
    obtain ⟨h1, h2, -, h3, h4⟩ := hw
    have hl := len_narrow h1 (fit len (by simp [usizeToks]))
    simp only [Emitted.compile, arrayLen_narrow es ⟨_, h1⟩ (fit len (by simp [usizeToks])),
      arrayLen_narrow slots ⟨_, h2⟩ (fit ns (by simp [usizeToks])), HasherTok.eval_narrow h4 (fun tok ht => fit tok (by simp [usizeToks, ht])),
      litSlots_narrow (fun s hs => by
        obtain ⟨a, b, h5, h6, h7, h8⟩ := h3 s hs
        exact ⟨a, b, h5, h6, by omega, by omega⟩)]
  | hashNC len ns cm slots es hasher =>
    obtain ⟨h1, h2, -, h3, h4⟩ := hw
    have hl := len_narrow h1 (fit len (by simp [usizeToks]))
    simp only [Emitted.compile, arrayLen_narrow es ⟨_, h1⟩ (fit len (by simp [usizeToks])),
      arrayLen_narrow slots ⟨_, h2⟩ (fit ns (by simp [usizeToks])), HasherTok.eval_narrow h4 (fun tok ht => fit tok (by simp [usizeToks, ht])),
      litMags_narrow (fun tok ht => (h3 tok ht).imp fun v h => ⟨h.1, Nat.le_trans h.2 hl⟩)]
  | fz kind es => rfl

/-- An expression with a `usize` literal that does not fit does not compile. -/
theorem Emitted.compile_unfit {F : Type} {eqK : K → K → Bool} {cmp : K → K → Ordering} {fz : FzKind → List (K × V) → Option (Res F)}
    {e : Emitted K V} (hf : ¬ FitsTarget t'.width e) : @Emitted.compile K V F t' eqK cmp fz e = none := by
  unfold FitsTarget at hf
  simp only [not_forall] at hf
  obtain ⟨tok, htok, hno⟩ := hf
  have hlit : @litUsize t' tok = none := by
    cases h : @litUsize t' tok with
    | none => rfl
    | some n => exact absurd ⟨n, numLit_iff.1 h⟩ hno
  have harr : ∀ {α : Type} (xs : List α), @arrayLen t' α tok xs = none := by
    intro α xs
    unfold arrayLen
    rw [hlit]
  have hhash : ∀ {h : HasherTok}, tok ∈ usizeToks.hasherToks h → @HasherTok.eval t' h = none := by
    intro h hm
    cases h with
    | left a b s =>
      simp only [usizeToks.hasherToks, List.mem_cons, List.not_mem_nil, or_false] at hm
      unfold HasherTok.eval
      rcases hm with rfl | rfl <;> simp only [hlit] <;> (try split) <;> simp_all
    | right a b s =>
      simp only [usizeToks.hasherToks, List.mem_cons, List.not_mem_nil, or_false] at hm
      unfold HasherTok.eval
      rcases hm with rfl | rfl <;> simp only [hlit] <;> (try split) <;> simp_all
    | _ => cases hm
  cases e with
  | fz kind es => cases htok
  | hash len ns cm slots es hasher =>
    simp only [usizeToks, List.mem_append, List.mem_cons, List.not_mem_nil, or_false] at htok
    rcases htok with (rfl | rfl) | h
    · simp only [Emitted.compile, harr] <;> (try split) <;> simp_all
    · simp only [Emitted.compile, harr] <;> (try split) <;> simp_all
    · simp only [Emitted.compile, hhash h] <;> (try split) <;> simp_all
  | hashNC len ns cm slots es hasher =>
    simp only [usizeToks, List.mem_append, List.mem_cons, List.not_mem_nil, or_false] at htok
    rcases htok with (rfl | rfl) | h
    · simp only [Emitted.compile, harr] <;> (try split) <;> simp_all
    · simp only [Emitted.compile, harr] <;> (try split) <;> simp_all
    · simp only [Emitted.compile, hhash h] <;> (try split) <;> simp_all
  | _ =>
    simp only [usizeToks, List.mem_cons, List.not_mem_nil, or_false] at htok
    rcases htok with rfl | rfl | rfl | rfl <;> simp only [Emitted.compile, harr, hlit, Option.map_none] <;> (try split) <;> simp_all

variable {Q : Type}

/-! ## Hash codes that differ by a multiple of the number of slots -/

theorem TableOK.congr {T : Type} {hash hash' : T → Nat} {tb : HashTable T} (h : TableOK hash tb)
    (he : ∀ e ∈ tb.entries, hash' e % tb.slots.length = hash e % tb.slots.length) : TableOK hash' tb where
  pow := h.pow
  bucket s hs := by
    obtain ⟨h1, h2, h3⟩ := h.bucket s hs
    refine ⟨h1, h2, h3.trans (List.filter_congr fun e hm => ?_)⟩
    rw [he e hm]

theorem TableNCOK.congr {T : Type} {hash hash' : T → Nat} {tb : HashTableNC T} (h : TableNCOK hash tb)
    (he : ∀ e ∈ tb.entries, hash' e % tb.slots.length = hash e % tb.slots.length) : TableNCOK hash' tb where
  pow := h.pow
  slot s hs := by
    rcases h.slot s hs with ⟨h1, h2⟩ | ⟨i, e, h1, h2, h3⟩
    · exact .inl ⟨h1, fun e hm => by rw [he e hm]; exact h2 e hm⟩
    · refine .inr ⟨i, e, h1, h2, Eq.trans (List.filter_congr fun e hm => ?_) h3⟩
      rw [he e hm]

/-- The query traits with indices greater by `c`. -/
def shiftIndex (q : QueryTraits Q K) (c : Nat) : QueryTraits Q K := { q with index := fun x => q.index x + c }

/-- The hash code of a key, given that the hash codes of the queries are smaller by `c`. -/
theorem unshift_hash {eqK : K → K → Bool} (heq : ∀ a b, eqK a b = true → a = b) {mt : Q → K → Bool} {hk : K → Nat} {hq : Q → Nat} {c : Nat}
    (hh : LawfulHash eqK mt hk (fun x => hq x + c)) {n : Nat} (hn : c % n = 0) :
    ∃ hk', LawfulHash eqK mt hk' hq ∧ ∀ k, hk' k % n = hk k % n := by
  classical
  refine ⟨fun k => if ∃ x, mt x k = true then hk k - c else hk k, ⟨?_, ?_⟩, ?_⟩
  · intro a b h
    rw [heq a b h]
  · intro x a h
    have := hh.query x a h
    rw [if_pos ⟨x, h⟩]
    omega
  · intro k
    simp only []
    split
    · rename_i hx
      obtain ⟨x, hx⟩ := hx
      have := hh.query x k hx
      rw [← this, Nat.add_sub_cancel, Nat.add_mod, hn, Nat.add_zero, Nat.mod_mod]
    · rfl

/-- A map that scans or hashes is right also for queries with indices smaller by a multiple of the number of slots. -/
theorem InlineMap.Inv.unshift {q : QueryTraits Q K} {c : Nat} {eqK : K → K → Bool} (heq : ∀ a b, eqK a b = true → a = b) {mt : Q → K → Bool}
    {m : InlineMap K V} (h : @InlineMap.Inv Q K V t (shiftIndex q c) eqK mt m)
    (hm : (∃ s, m.repr = .scan s) ∨ (∃ s, m.repr = .hash .scalar s ∧ c % s.table.slots.length = 0) ∨
      ∃ s, m.repr = .hashNC .scalar s ∧ c % s.table.slots.length = 0) : @InlineMap.Inv Q K V t' q eqK mt m := by
  obtain ⟨hsz, h⟩ := h
  refine ⟨hsz, ?_⟩
  obtain ⟨sz, r⟩ := m
  rcases hm with ⟨s, hs⟩ | ⟨s, hs, hc⟩ | ⟨s, hs, hc⟩
  · cases hs
    exact h
  · cases hs
    obtain ⟨h1, hk, hq, h2, h3, h4, h5⟩ := h
    have : hq = fun x => q.index x + c := by
      funext x
      exact (Except.ok.inj (h3 x)).symm
    subst this
    obtain ⟨hk', h6, h7⟩ := unshift_hash heq h2 hc
    exact ⟨h1, hk', q.index, h6, fun _ => rfl, h4.congr fun e _ => h7 e.1, h5⟩
  · cases hs
    obtain ⟨h1, hk, hq, h2, h3, h4, h5⟩ := h
    have : hq = fun x => q.index x + c := by
      funext x
      exact (Except.ok.inj (h3 x)).symm
    subst this
    obtain ⟨hk', h6, h7⟩ := unshift_hash heq h2 hc
    exact ⟨h1, hk', q.index, h6, fun _ => rfl, h4.congr fun e _ => h7 e.1, h5⟩

theorem litSlots_length [Target] {cm : Magnitude} : ∀ {ts : List (Tok × Tok)} {ss : List Slot}, litSlots cm ts = some ss → ss.length = ts.length
  | [], ss, h => by cases h; rfl
  | tk :: ts, ss, h => by
    unfold litSlots at h
    split at h
    · rename_i h3
      cases h
      rw [List.length_cons, List.length_cons, litSlots_length h3]
    · cases h

theorem litMags_length [Target] {cm : Magnitude} : ∀ {ts : List Tok} {ss : List Nat}, litMags cm ts = some ss → ss.length = ts.length
  | [], ss, h => by cases h; rfl
  | tk :: ts, ss, h => by
    unfold litMags at h
    split at h
    · rename_i h3
      cases h
      rw [List.length_cons, List.length_cons, litMags_length h3]
    · cases h

/-- What an expression that scans or hashes evaluates to. -/
theorem Emitted.compile_scansOrHashes [Target] {F : Type} {eqK : K → K → Bool} {cmp : K → K → Ordering} {fz : FzKind → List (K × V) → Option (Res F)}
    {e : Emitted K V} (hs : ScansOrHashes e) (hw : WellTyped e) {m : InlineMap K V} (hc : e.compile eqK cmp fz = some (.ok (.inl m))) {c : Nat}
    (hcs : ∀ tok ∈ usizeToks e, ∀ k, UsizeLit tok (2 ^ k) → c % 2 ^ k = 0) :
    (∃ s, m.repr = .scan s) ∨ (∃ s, m.repr = .hash .scalar s ∧ c % s.table.slots.length = 0) ∨
      ∃ s, m.repr = .hashNC .scalar s ∧ c % s.table.slots.length = 0 := by
  cases e with
  | scanRaw len es =>
    left
    have h : arrayLen len es = some es.length := arrayLen_of (numLit_iff.2 hw) rfl
    simp only [Emitted.compile, h, Option.map_some] at hc
    cases hc
    exact ⟨_, rfl⟩
  | hash len ns cm slots es hasher =>
    cases hasher with
    | scalar =>
      obtain ⟨h1, h2, ⟨k, hk⟩, -, -⟩ := hw
      right; left
      simp only [Emitted.compile] at hc
      split at hc
      · rename_i ss hh e1 e2 e3 e4
        cases e4
        unfold runHash HashTable.newRaw at hc
        cases hcs' : csub ss.length 1 with
        | error e => rw [hcs'] at hc; cases hc
        | ok v =>
          rw [hcs'] at hc
          cases hc
          refine ⟨_, rfl, ?_⟩
          show c % ss.length = 0
          rw [litSlots_length e3, hk]
          exact hcs ns (by simp [usizeToks]) k (hk ▸ h2)
      · cases hc
    | _ => exact hs.elim
  | hashNC len ns cm slots es hasher =>
    cases hasher with
    | scalar =>
      obtain ⟨h1, h2, ⟨k, hk⟩, -, -⟩ := hw
      right; right
      simp only [Emitted.compile] at hc
      split at hc
      · rename_i ss hh e1 e2 e3 e4
        cases e4
        unfold runHashNC HashTableNC.newRaw at hc
        cases hcs' : csub ss.length 1 with
        | error e => rw [hcs'] at hc; cases hc
        | ok v =>
          rw [hcs'] at hc
          cases hc
          refine ⟨_, rfl, ?_⟩
          show c % ss.length = 0
          rw [litMags_length e3, hk]
          exact hcs ns (by simp [usizeToks]) k (hk ▸ h2)
      · cases hc
    | _ => exact hs.elim
  | _ => exact hs.elim

end Frozen.Model
