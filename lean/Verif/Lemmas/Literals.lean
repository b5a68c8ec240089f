import Verif.Model.Compile

/-! # Lemmas about emitted integer literals -/

namespace Frozen.Model

theorem pushGroups_append (xs : Tok) : ∀ (i : Nat) (out : Tok), pushGroups xs i out = out ++ pushGroups xs i [] := by
  induction xs with
  | nil => intro i out; simp [pushGroups]
  | cons c rest ih =>
    intro i out
    unfold pushGroups
    split
    · rw [ih (i + 1) (out ++ ['_', c]), ih (i + 1) ([] ++ ['_', c])]; simp
    · rw [ih (i + 1) (out ++ [c]), ih (i + 1) ([] ++ [c])]; simp

/-- One step, with the groups as a prefix. -/
theorem pushGroups_cons (c : Char) (rest : Tok) (i : Nat) :
    pushGroups (c :: rest) i [] =
      (if i % 3 == 0 && i != 0 then ['_', c] else [c]) ++ pushGroups rest (i + 1) [] := by
  show (if i % 3 == 0 && i != 0 then pushGroups rest (i + 1) ([] ++ ['_', c])
    else pushGroups rest (i + 1) ([] ++ [c])) = _
  split
  · rw [pushGroups_append]; simp
  · rw [pushGroups_append]; simp

theorem pushGroups_filter (xs : Tok) : ∀ i, (∀ c ∈ xs, c.isDigit = true) →
    (pushGroups xs i []).filter (fun c => c.isDigit) = xs := by
  induction xs with
  | nil => intro i _; rfl
  | cons c rest ih =>
    intro i h
    rw [pushGroups_cons, List.filter_append, ih (i + 1) (fun c hc => h c (List.mem_cons_of_mem _ hc))]
    have hc := h c List.mem_cons_self
    split <;> simp [List.filter_cons, hc, (by decide : ('_' : Char).isDigit = false)]

theorem pushGroups_chars (xs : Tok) : ∀ i, (∀ c ∈ xs, c.isDigit = true) →
    ∀ c ∈ pushGroups xs i [], isLitChar c = true := by
  induction xs with
  | nil => intro i _ c hc; simp [pushGroups] at hc
  | cons d rest ih =>
    intro i h c hc
    rw [pushGroups_cons, List.mem_append] at hc
    rcases hc with hc | hc
    · have hd := h d List.mem_cons_self
      split at hc
      · simp at hc; rcases hc with rfl | rfl
        · decide
        · simp [isLitChar, hd]
      · simp at hc; subst hc; simp [isLitChar, hd]
    · exact ih (i + 1) (fun c hc => h c (List.mem_cons_of_mem _ hc)) c hc

theorem pushGroups_head (xs : Tok) : (pushGroups xs 0 []).head? = xs.head? := by
  cases xs with
  | nil => rfl
  | cons c rest => rw [pushGroups_cons]; simp

theorem pushGroups_getLast (xs : Tok) : ∀ i, (pushGroups xs i []).getLast? = xs.getLast? := by
  induction xs with
  | nil => intro i; rfl
  | cons c rest ih =>
    intro i
    rw [pushGroups_cons, List.getLast?_append, ih (i + 1)]
    cases rest with
    | nil => split <;> simp
    | cons d rest =>
      rw [List.getLast?_cons_cons, List.getLast?_eq_some_getLast (List.cons_ne_nil d rest)]; rfl

theorem pushGroups_ne_nil {xs : Tok} (h : xs ≠ []) (i : Nat) : pushGroups xs i [] ≠ [] := by
  cases xs with
  | nil => exact absurd rfl h
  | cons c rest => rw [pushGroups_cons]; split <;> simp

/-- What is left of a literal's numeric part after grouping. -/
def grouped (ds : Tok) : Tok := (pushGroups ds.reverse 0 []).reverse

/-- A suffix begins with something that cannot belong to the number. -/
def SuffixOk (suf : Tok) : Prop := ∀ c, suf.head? = some c → isLitChar c = false

theorem suffixIndex_none {ds : Tok} (h : ∀ c ∈ ds, c.isDigit = true) : suffixIndex ds = none := by
  unfold suffixIndex
  rw [List.findIdx?_eq_none_iff]
  intro c hc; simp [h c hc]

theorem suffixIndex_some {ds : Tok} (h : ∀ c ∈ ds, c.isDigit = true) {c : Char} {suf : Tok} (hc : c.isDigit = false) :
    suffixIndex (ds ++ c :: suf) = some ds.length := by
  unfold suffixIndex
  rw [List.findIdx?_append]
  have : List.findIdx? (fun c => !c.isDigit) ds = none := suffixIndex_none h
  rw [this]
  simp [List.findIdx?_cons, hc]

theorem inject_eq {ds suf : Tok} (h : ∀ c ∈ ds, c.isDigit = true) (hs : ∀ c, suf.head? = some c → c.isDigit = false) :
    injectUnderscores (ds ++ suf) = grouped ds ++ suf := by
  cases suf with
  | nil =>
    simp only [List.append_nil]
    unfold injectUnderscores
    rw [suffixIndex_none h]; rfl
  | cons c suf =>
    unfold injectUnderscores
    rw [suffixIndex_some h (hs c rfl)]
    simp [grouped]

theorem grouped_filter {ds : Tok} (h : ∀ c ∈ ds, c.isDigit = true) : (grouped ds).filter (fun c => c.isDigit) = ds := by
  unfold grouped
  rw [List.filter_reverse, pushGroups_filter ds.reverse 0 (fun c hc => h c (by simpa using hc)), List.reverse_reverse]

theorem grouped_chars {ds : Tok} (h : ∀ c ∈ ds, c.isDigit = true) : ∀ c ∈ grouped ds, isLitChar c = true := by
  intro c hc
  exact pushGroups_chars ds.reverse 0 (fun c hc => h c (by simpa using hc)) c (by simpa [grouped] using hc)

theorem grouped_head (ds : Tok) : (grouped ds).head? = ds.head? := by
  unfold grouped
  rw [List.head?_reverse, pushGroups_getLast, List.getLast?_reverse]

theorem grouped_getLast (ds : Tok) : (grouped ds).getLast? = ds.getLast? := by
  unfold grouped
  rw [List.getLast?_reverse, pushGroups_head, List.head?_reverse]

/-- Reading a literal whose numeric part starts with a digit. -/
theorem litEval_split {num suf : Tok} (hh : ∃ c, num.head? = some c ∧ c.isDigit = true)
    (hn : ∀ c ∈ num, isLitChar c = true) (hs : SuffixOk suf) :
    litEval (num ++ suf) = some (Nat.ofDigitChars 10 (num.filter (fun c => c.isDigit)) 0, suf) := by
  obtain ⟨c, hc, hd⟩ := hh
  cases num with
  | nil => simp at hc
  | cons c' rest =>
    simp at hc; subst hc
    have h1 : (c' :: rest ++ suf).takeWhile isLitChar = c' :: rest := by
      rw [List.takeWhile_append_of_pos hn]
      cases suf with
      | nil => simp
      | cons s suf => simp [hs s rfl]
    have h2 : (c' :: rest ++ suf).dropWhile isLitChar = suf := by
      rw [List.dropWhile_append_of_pos hn]
      cases suf with
      | nil => rfl
      | cons s suf => simp [hs s rfl]
    show (if c'.isDigit then some (Nat.ofDigitChars 10 (((c' :: rest ++ suf).takeWhile isLitChar).filter _) 0,
      (c' :: rest ++ suf).dropWhile isLitChar) else none) = _
    rw [h1, h2, hd]; rfl

theorem digits_isDigit (n : Nat) : ∀ c ∈ digits n, c.isDigit = true := fun _ hc =>
  Nat.isDigit_of_mem_toDigits (b := 10) (by decide) (by decide) hc

theorem digits_head (n : Nat) : ∃ c, (digits n).head? = some c ∧ c.isDigit = true := by
  have h := digits_isDigit n
  have hne : digits n ≠ [] := Nat.toDigits_ne_nil
  cases hd : digits n with
  | nil => exact absurd hd hne
  | cons c rest => exact ⟨c, rfl, h c (by rw [hd]; exact List.mem_cons_self)⟩

theorem litEval_digits (n : Nat) {suf : Tok} (hs : SuffixOk suf) : litEval (digits n ++ suf) = some (n, suf) := by
  rw [litEval_split (digits_head n) (fun c hc => by simp [isLitChar, digits_isDigit n c hc]) hs]
  have : (digits n).filter (fun c => c.isDigit) = digits n := List.filter_eq_self.2 (digits_isDigit n)
  rw [this]
  unfold digits
  rw [Nat.ofDigitChars_ten_toDigits]

theorem litEval_inject (n : Nat) {suf : Tok} (hs : SuffixOk suf) :
    litEval (injectUnderscores (digits n ++ suf)) = some (n, suf) := by
  rw [inject_eq (digits_isDigit n) (fun c hc => by
    have := hs c hc; simp [isLitChar] at this; exact this.1)]
  rw [litEval_split (by rw [grouped_head]; exact digits_head n) (grouped_chars (digits_isDigit n)) hs,
    grouped_filter (digits_isDigit n)]
  unfold digits
  rw [Nat.ofDigitChars_ten_toDigits]

theorem SuffixOk.nil : SuffixOk [] := by intro c hc; cases hc
theorem SuffixOk.usize : SuffixOk "usize".toList := by intro c hc; simp at hc; subst hc; decide
theorem SuffixOk.u64 : SuffixOk "u64".toList := by intro c hc; simp at hc; subst hc; decide

theorem litAs_of {ty : String} {max n : Nat} {t suf : Tok} (h : litEval t = some (n, suf))
    (hs : suf = [] ∨ suf = ty.toList) (hn : n ≤ max) : litAs ty max t = some n := by
  unfold litAs
  rw [h]
  have : (suf == [] || suf == ty.toList) = true := by rcases hs with rfl | rfl <;> simp
  simp only [this, Bool.true_and, hn, decide_true, if_true]

theorem litUsize_digits [Target] {n : Nat} (h : n ≤ usizeMax) : litUsize (digits n) = some n :=
  litAs_of (by have := litEval_digits n SuffixOk.nil; rwa [List.append_nil] at this) (Or.inl rfl) h

theorem litUsize_digits_inject [Target] {n : Nat} (h : n ≤ usizeMax) : litUsize (injectUnderscores (digits n)) = some n :=
  litAs_of (by have := litEval_inject n SuffixOk.nil; rwa [List.append_nil] at this) (Or.inl rfl) h

theorem litUsize_usizeTok [Target] {n : Nat} (h : n ≤ usizeMax) : litUsize (usizeTok n) = some n :=
  litAs_of (litEval_digits n SuffixOk.usize) (Or.inr rfl) h

theorem litUsize_usizeTok_inject [Target] {n : Nat} (h : n ≤ usizeMax) : litUsize (injectUnderscores (usizeTok n)) = some n :=
  litAs_of (litEval_inject n SuffixOk.usize) (Or.inr rfl) h

theorem litU64_u64Tok_inject {n : Nat} (h : n < 2 ^ 64) : litU64 (injectUnderscores (u64Tok n)) = some n :=
  litAs_of (litEval_inject n SuffixOk.u64) (Or.inr rfl) (by omega)

theorem litMag_digits [Target] {cm : Magnitude} {n : Nat} (h : n ≤ cm.maxCapacity) : litMag cm (digits n) = some n :=
  litAs_of (by have := litEval_digits n SuffixOk.nil; rwa [List.append_nil] at this) (Or.inl rfl) h

theorem litMags_digits [Target] {cm : Magnitude} {ns : List Nat} (h : ∀ n ∈ ns, n ≤ cm.maxCapacity) :
    litMags cm (ns.map digits) = some ns := by
  induction ns with
  | nil => rfl
  | cons n ns ih =>
    show (match litMag cm (digits n), litMags cm (ns.map digits) with
      | some n, some ns => some (n :: ns) | _, _ => none) = _
    rw [litMag_digits (h n List.mem_cons_self), ih (fun m hm => h m (List.mem_cons_of_mem _ hm))]

theorem litSlots_toTokens [Target] {cm : Magnitude} {ss : List Slot}
    (h : ∀ s ∈ ss, s.minIndex ≤ cm.maxCapacity ∧ s.maxIndex ≤ cm.maxCapacity) :
    litSlots cm (ss.map Slot.toTokens) = some ss := by
  induction ss with
  | nil => rfl
  | cons s ss ih =>
    have hs := h s List.mem_cons_self
    show (match litMag cm (digits s.minIndex), litMag cm (digits s.maxIndex), litSlots cm (ss.map Slot.toTokens) with
      | some a, some b, some ss => some ((⟨a, b⟩ : Slot) :: ss) | _, _, _ => none) = _
    rw [litMag_digits hs.1, litMag_digits hs.2, ih (fun m hm => h m (List.mem_cons_of_mem _ hm))]

theorem arrayLen_of [Target] {α : Type} {t : Tok} {xs : List α} {n : Nat} (h : litUsize t = some n) (hn : n = xs.length) :
    arrayLen t xs = some n := by
  unfold arrayLen; rw [h]; simp [hn]

theorem collectionMagnitude_le [Target] (n : Nat) (h : n ≤ usizeMax) : n ≤ (collectionMagnitude n).maxCapacity := by
  unfold collectionMagnitude
  split
  · assumption
  · split
    · assumption
    · exact h

theorem pushGroups_shift (xs : Tok) : ∀ i, 0 < i → pushGroups xs (i + 3) [] = pushGroups xs i [] := by
  induction xs with
  | nil => intro i _; rfl
  | cons c rest ih =>
    intro i hi
    rw [pushGroups_cons, pushGroups_cons, show i + 3 + 1 = (i + 1) + 3 by omega, ih (i + 1) (by omega)]
    have h1 : (i + 3) % 3 = i % 3 := by omega
    have h2 : (i + 3 != 0) = (i != 0) := by
      have : i ≠ 0 := by omega
      simp [this]
    rw [h1, h2]

theorem pushGroups_three {c : Char} {rest : Tok} : pushGroups (c :: rest) 3 [] = '_' :: pushGroups (c :: rest) 0 [] := by
  rw [pushGroups_cons, pushGroups_cons, show 3 + 1 = (0 + 1) + 3 by omega, pushGroups_shift rest (0 + 1) (by omega)]
  rfl

/-- Three more digits are one more group. -/
theorem grouped_append {a : Tok} (ha : a ≠ []) (x y z : Char) : grouped (a ++ [x, y, z]) = grouped a ++ ['_', x, y, z] := by
  unfold grouped
  obtain ⟨c, rest, hr⟩ := List.exists_cons_of_ne_nil (l := a.reverse) (by simpa using ha)
  rw [List.reverse_append, hr]
  have : [x, y, z].reverse ++ (c :: rest) = z :: y :: x :: c :: rest := rfl
  rw [this, pushGroups_cons, pushGroups_cons, pushGroups_cons]
  show (List.reverse ([z] ++ ([y] ++ ([x] ++ pushGroups (c :: rest) 3 [])))) = _
  rw [pushGroups_three]
  simp

theorem grouped_short {a : Tok} (ha : a.length ≤ 3) : grouped a = a := by
  unfold grouped
  match a, ha with
  | [], _ => rfl
  | [x], _ => rfl
  | [x, y], _ => rfl
  | [x, y, z], _ => rfl

end Frozen.Model
