import Verif.Props.ParseSpec

/-! # Helper lemmas on the parser of macro calls (C56) -/

namespace Frozen.Model

open Frozen.Props

variable {E T : Type} {S : SynParsers E T} {isMap : Bool}

theorem parsePunct_ok {c : Char} {t : Tk} (h : IsPunct c t) (ts : List Tk) : parsePunct c (t :: ts) = .ok ((), ts) := by
  obtain ⟨j, rfl⟩ := h
  simp [parsePunct]

theorem parsePunct_inv {c : Char} {ts rest : List Tk} {u : Unit} (h : parsePunct c ts = .ok (u, rest)) :
    ∃ t, IsPunct c t ∧ ts = t :: rest := by
  unfold parsePunct at h
  split at h
  · rename_i c' j r
    split at h
    · rename_i hc
      cases h
      exact ⟨_, ⟨j, by rw [hc]⟩, rfl⟩
    · cases h
  · cases h

theorem reserved_iff (s : String) : s ∈ keywords ↔ s ∈ reservedWords := by
  have h1 : ∀ s ∈ keywords, s ∈ reservedWords := by decide
  have h2 : ∀ s ∈ reservedWords, s ∈ keywords := by decide
  exact ⟨h1 s, h2 s⟩

theorem parseIdent_ok {s : String} (h : s ∉ reservedWords) (ts : List Tk) : parseIdent (.ident s :: ts) = .ok (s, ts) := by
  simp [parseIdent, reserved_iff, h]

theorem parseIdent_inv {ts rest : List Tk} {s : String} (h : parseIdent ts = .ok (s, rest)) :
    s ∉ reservedWords ∧ ts = .ident s :: rest := by
  unfold parseIdent at h
  split at h
  · split at h
    · cases h
    · rename_i hk
      cases h
      exact ⟨fun h => hk ((reserved_iff _).2 h), rfl⟩
  · cases h

/-- Follow sets. -/
abbrev exprEnds : List Char := [',', ':']
abbrev tyEnds : List Char := [',', '>']

theorem parseEntry_ok {ts : List Tk} {e : ParsedEntry E} (h : EntryToks (ReadsAs S.expr exprEnds) isMap ts e) (rest : List Tk)
    (hr : rest = [] ∨ ∃ t r, IsPunct ',' t ∧ rest = t :: r) : parseEntry S isMap (ts ++ rest) = .ok (e, rest) := by
  have hr' : rest = [] ∨ ∃ c ∈ exprEnds, ∃ t r, IsPunct c t ∧ rest = t :: r := by
    rcases hr with h | ⟨t, r, h1, h2⟩
    · exact Or.inl h
    · exact Or.inr ⟨',', by simp, t, r, h1, h2⟩
  cases h with
  | @map k v key value c hk hc hv =>
    unfold parseEntry
    rw [List.append_assoc, List.cons_append, hk.2 (c :: (v ++ rest)) (Or.inr ⟨':', by simp, c, _, hc, rfl⟩)]
    simp only [bind, Except.bind, if_true, parsePunct_ok hc, hv.2 rest hr']
  | @set k key hk =>
    unfold parseEntry
    rw [hk.2 rest hr']
    simp [bind, Except.bind]

theorem EntryToks.ne_nil {ts : List Tk} {e : ParsedEntry E} (h : EntryToks (ReadsAs S.expr exprEnds) isMap ts e) : ts ≠ [] := by
  cases h with
  | map hk hc hv => simp
  | set hk => exact hk.1

theorem parseTerminated_ok {ts : List Tk} {es : List (ParsedEntry E)} (h : ListToks (ReadsAs S.expr exprEnds) isMap ts es) :
    ∀ fuel, ts.length < fuel → parseTerminated S isMap fuel ts = .ok es := by
  induction h with
  | nil =>
    intro fuel hf
    cases fuel with
    | zero => simp at hf
    | succ n => simp [parseTerminated]
  | @one ts e he =>
    intro fuel hf
    cases fuel with
    | zero => omega
    | succ n =>
      have hne := EntryToks.ne_nil he
      have hp := parseEntry_ok he [] (Or.inl rfl)
      rw [List.append_nil] at hp
      rw [parseTerminated, if_neg (by simpa using hne), hp]
      simp [bind, Except.bind]
  | @cons ts us c e es he hc hes ih =>
    intro fuel hf
    cases fuel with
    | zero => omega
    | succ n =>
      have hne := EntryToks.ne_nil he
      have hp := parseEntry_ok he (c :: us) (Or.inr ⟨c, us, hc, rfl⟩)
      rw [parseTerminated, if_neg (by simp), hp]
      have hl : us.length < n := by
        simp only [List.length_append, List.length_cons] at hf
        omega
      simp [bind, Except.bind, parsePunct_ok hc, ih n hl]

theorem parsePayload_ok {inner : List Tk} {es : List (ParsedEntry E)} (h : ListToks (ReadsAs S.expr exprEnds) isMap inner es)
    (rest : List Tk) : parsePayload S isMap (.group .brace inner :: rest) = .ok (es, rest) := by
  simp [parsePayload, parseBraces, bind, Except.bind, parseTerminated_ok h _ (Nat.lt_succ_self _)]

theorem parseTypeArgs_ok {ts : List Tk} {kt : T} {vt : Option T} (h : TypeToks (ReadsAs S.ty tyEnds) isMap ts kt vt) {g : Tk}
    (hg : IsPunct '>' g) (rest : List Tk) : parseTypeArgs S isMap (ts ++ g :: rest) = .ok ((kt, vt), g :: rest) := by
  have hg' : g :: rest = [] ∨ ∃ c ∈ tyEnds, ∃ t r, IsPunct c t ∧ g :: rest = t :: r := Or.inr ⟨'>', by simp, g, rest, hg, rfl⟩
  cases h with
  | @map k v kt vt c hk hc hv =>
    unfold parseTypeArgs
    rw [List.append_assoc, List.cons_append, hk.2 (c :: (v ++ g :: rest)) (Or.inr ⟨',', by simp, c, _, hc, rfl⟩)]
    simp only [bind, Except.bind, if_true, parsePunct_ok hc, hv.2 _ hg']
  | @set k kt hk =>
    unfold parseTypeArgs
    rw [hk.2 _ hg']
    simp [bind, Except.bind]

theorem parseLongForm_ok {ts : List Tk} {name al : String} {kt : T} {vt : Option T} {es : List (ParsedEntry E)}
    (h : LongToks (ReadsAs S.expr exprEnds) (ReadsAs S.ty tyEnds) isMap ts name al kt vt es) (vis : Vis) (st mu : Bool) :
    parseLongForm S isMap vis st mu ts =
      .ok ({ varName := name, typeName := al, keyType := kt, valueType := vt, entries := es, visibility := vis, isStatic := st,
             isMutable := mu }, []) := by
  cases h with
  | mk hname hal hcolon hlt ht hgt hcomma hes =>
    unfold parseLongForm
    simp only [bind, Except.bind, parseIdent_ok hname, parsePunct_ok hcolon, parseIdent_ok hal, parsePunct_ok hlt, parseTypeArgs_ok ht hgt,
      parsePunct_ok hgt, parsePunct_ok hcomma, parsePayload_ok hes]

/-- What may follow a visibility. -/
def AfterVis : List Tk → Prop
  | .ident s :: _ => s = "static" ∨ s = "let"
  | .group .brace _ :: _ => True
  | _ => False

theorem parseVisibility_ok {v : List Tk} {vis : Vis} (h : VisToks S.modPath v vis) {rest : List Tk} (hr : AfterVis rest) :
    parseVisibility S (v ++ rest) = .ok (vis, rest) := by
  cases h with
  | none =>
    unfold AfterVis at hr
    split at hr
    · rcases hr with rfl | rfl <;> simp [parseVisibility]
    · simp [parseVisibility]
    · exact hr.elim
  | empty => simp [parseVisibility]
  | pub =>
    unfold AfterVis at hr
    split at hr
    · simp [parseVisibility]
    · simp [parseVisibility]
    · exact hr.elim
  | word hw => simp [parseVisibility, hw]
  | @inPath p hne hp =>
    cases p with
    | nil => exact (hne rfl).elim
    | cons x xs => simp [parseVisibility, hp]

theorem peekWord_ident (w s : String) (ts : List Tk) : peekWord w (.ident s :: ts) = (s == w) := rfl

theorem parse2_complete {ts : List Tk} {call : ParsedCall E T}
    (h : CallToks S.modPath (ReadsAs S.expr exprEnds) (ReadsAs S.ty tyEnds) isMap ts call) : parse2 S isMap ts = .ok call := by
  unfold parse2 parseCall
  cases h with
  | @short v inner es hv hes =>
    rw [parseVisibility_ok hv (by simp [AfterVis])]
    simp [bind, Except.bind, Vis.explicit, peekWord, parsePayload_ok hes]
  | @let_ v ts name al kt vt es mu hv hl =>
    rw [parseVisibility_ok hv (by simp [AfterVis])]
    have hnm : peekWord "mut" ts = false := by
      cases hl with
      | mk hname =>
        simp only [peekWord, beq_eq_false_iff_ne]
        rintro rfl
        exact hname (by decide)
    cases mu
    · simp [bind, Except.bind, Vis.explicit, peekWord_ident, hnm, parseLongForm_ok hl]
    · simp [bind, Except.bind, Vis.explicit, peekWord, parseLongForm_ok hl]
  | @static v ts vis name al kt vt es hv hl =>
    rw [parseVisibility_ok hv (by simp [AfterVis])]
    simp [bind, Except.bind, peekWord, parseLongForm_ok hl]

/-! ## Soundness -/

theorem reads_of_consumes {α : Type} {p : TkParser α} (hp : Consumes p) {ts rest : List Tk} {a : α} (h : p ts = .ok (a, rest)) :
    ∃ used, ts = used ++ rest ∧ ReadsAsIn p used a := by
  obtain ⟨used, hne, rfl⟩ := hp ts a rest h
  exact ⟨used, rfl, hne, rest, h⟩

theorem parseEntry_inv (hE : Consumes S.expr) {ts rest : List Tk} {e : ParsedEntry E} (h : parseEntry S isMap ts = .ok (e, rest)) :
    ∃ used, ts = used ++ rest ∧ EntryToks (ReadsAsIn S.expr) isMap used e := by
  unfold parseEntry at h
  cases hk : S.expr ts with
  | error m => rw [hk] at h; cases h
  | ok r =>
    obtain ⟨key, ts1⟩ := r
    obtain ⟨k, rfl, hk'⟩ := reads_of_consumes hE hk
    rw [hk] at h
    simp only [bind, Except.bind] at h
    cases isMap with
    | false =>
      simp only [Bool.false_eq_true, if_false] at h
      cases h
      exact ⟨k, rfl, EntryToks.set hk'⟩
    | true =>
      simp only [if_true] at h
      cases hc : parsePunct ':' ts1 with
      | error m => rw [hc] at h; cases h
      | ok r =>
        obtain ⟨u, ts2⟩ := r
        obtain ⟨c, hc', rfl⟩ := parsePunct_inv hc
        rw [hc] at h
        simp only at h
        cases hv : S.expr ts2 with
        | error m => rw [hv] at h; cases h
        | ok r =>
          obtain ⟨value, ts3⟩ := r
          obtain ⟨v, rfl, hv'⟩ := reads_of_consumes hE hv
          rw [hv] at h
          cases h
          exact ⟨k ++ c :: v, by simp, EntryToks.map hk' hc' hv'⟩

theorem parseTerminated_inv (hE : Consumes S.expr) : ∀ (fuel : Nat) {ts : List Tk} {es : List (ParsedEntry E)},
    parseTerminated S isMap fuel ts = .ok es → ListToks (ReadsAsIn S.expr) isMap ts es
  | 0, ts, es, h => by cases h
  | fuel + 1, ts, es, h => by
    rw [parseTerminated] at h
    split at h
    · rename_i hne
      cases h
      rw [List.isEmpty_iff.1 hne]
      exact ListToks.nil
    · simp only [bind, Except.bind] at h
      cases he : parseEntry S isMap ts with
      | error m => rw [he] at h; cases h
      | ok r =>
        obtain ⟨e, ts1⟩ := r
        obtain ⟨used, rfl, he'⟩ := parseEntry_inv hE he
        rw [he] at h
        simp only at h
        split at h
        · rename_i hn
          cases h
          rw [List.isEmpty_iff.1 hn, List.append_nil]
          exact ListToks.one he'
        · cases hc : parsePunct ',' ts1 with
          | error m => rw [hc] at h; cases h
          | ok r =>
            obtain ⟨u, ts2⟩ := r
            obtain ⟨c, hc', rfl⟩ := parsePunct_inv hc
            rw [hc] at h
            simp only at h
            cases hr : parseTerminated S isMap fuel ts2 with
            | error m => rw [hr] at h; cases h
            | ok es' =>
              rw [hr] at h
              cases h
              exact ListToks.cons he' hc' (parseTerminated_inv hE fuel hr)

theorem parsePayload_inv (hE : Consumes S.expr) {ts rest : List Tk} {es : List (ParsedEntry E)}
    (h : parsePayload S isMap ts = .ok (es, rest)) :
    ∃ inner, ts = .group .brace inner :: rest ∧ ListToks (ReadsAsIn S.expr) isMap inner es := by
  unfold parsePayload parseBraces at h
  simp only [bind, Except.bind] at h
  split at h
  · cases h
  · rename_i r hb
    split at hb
    · cases hb
      simp only at h
      split at h
      · cases h
      · rename_i es' hes
        cases h
        exact ⟨_, rfl, parseTerminated_inv hE _ hes⟩
    · cases hb

theorem parseTypeArgs_inv (hT : Consumes S.ty) {ts rest : List Tk} {r : T × Option T} (h : parseTypeArgs S isMap ts = .ok (r, rest)) :
    ∃ used, ts = used ++ rest ∧ TypeToks (ReadsAsIn S.ty) isMap used r.1 r.2 := by
  unfold parseTypeArgs at h
  cases hk : S.ty ts with
  | error m => rw [hk] at h; cases h
  | ok q =>
    obtain ⟨kt, ts1⟩ := q
    obtain ⟨k, rfl, hk'⟩ := reads_of_consumes hT hk
    rw [hk] at h
    simp only [bind, Except.bind] at h
    cases isMap with
    | false =>
      simp only [Bool.false_eq_true, if_false] at h
      cases h
      exact ⟨k, rfl, TypeToks.set hk'⟩
    | true =>
      simp only [if_true] at h
      cases hc : parsePunct ',' ts1 with
      | error m => rw [hc] at h; cases h
      | ok q =>
        obtain ⟨u, ts2⟩ := q
        obtain ⟨c, hc', rfl⟩ := parsePunct_inv hc
        rw [hc] at h
        simp only at h
        cases hv : S.ty ts2 with
        | error m => rw [hv] at h; cases h
        | ok q =>
          obtain ⟨vt, ts3⟩ := q
          obtain ⟨v, rfl, hv'⟩ := reads_of_consumes hT hv
          rw [hv] at h
          cases h
          exact ⟨k ++ c :: v, by simp, TypeToks.map hk' hc' hv'⟩

/-- A parsed long form with everything behind it. -/
theorem parseLongForm_inv (hE : Consumes S.expr) (hT : Consumes S.ty) {vis : Vis} {st mu : Bool} {ts rest : List Tk} {m : LongForm E T}
    (h : parseLongForm S isMap vis st mu ts = .ok (m, rest)) :
    ∃ used, ts = used ++ rest ∧
      LongToks (ReadsAsIn S.expr) (ReadsAsIn S.ty) isMap used m.varName m.typeName m.keyType m.valueType m.entries ∧
      m.visibility = vis ∧ m.isStatic = st ∧ m.isMutable = mu := by
  unfold parseLongForm at h
  simp only [bind, Except.bind] at h
  cases h1 : parseIdent ts with
  | error x => rw [h1] at h; cases h
  | ok r1 =>
  obtain ⟨name, ts1⟩ := r1
  obtain ⟨hname, rfl⟩ := parseIdent_inv h1
  rw [h1] at h; simp only at h
  cases h2 : parsePunct ':' ts1 with
  | error x => rw [h2] at h; cases h
  | ok r2 =>
  obtain ⟨u, ts2⟩ := r2
  obtain ⟨colon, hcolon, rfl⟩ := parsePunct_inv h2
  rw [h2] at h; simp only at h
  cases h3 : parseIdent ts2 with
  | error x => rw [h3] at h; cases h
  | ok r3 =>
  obtain ⟨al, ts3⟩ := r3
  obtain ⟨hal, rfl⟩ := parseIdent_inv h3
  rw [h3] at h; simp only at h
  cases h4 : parsePunct '<' ts3 with
  | error x => rw [h4] at h; cases h
  | ok r4 =>
  obtain ⟨u, ts4⟩ := r4
  obtain ⟨lt, hlt, rfl⟩ := parsePunct_inv h4
  rw [h4] at h; simp only at h
  cases h5 : parseTypeArgs S isMap ts4 with
  | error x => rw [h5] at h; cases h
  | ok r5 =>
  obtain ⟨types, ts5⟩ := r5
  obtain ⟨tys, rfl, htys⟩ := parseTypeArgs_inv hT h5
  rw [h5] at h; simp only at h
  cases h6 : parsePunct '>' ts5 with
  | error x => rw [h6] at h; cases h
  | ok r6 =>
  obtain ⟨u, ts6⟩ := r6
  obtain ⟨gt, hgt, rfl⟩ := parsePunct_inv h6
  rw [h6] at h; simp only at h
  cases h7 : parsePunct ',' ts6 with
  | error x => rw [h7] at h; cases h
  | ok r7 =>
  obtain ⟨u, ts7⟩ := r7
  obtain ⟨comma, hcomma, rfl⟩ := parsePunct_inv h7
  rw [h7] at h; simp only at h
  cases h8 : parsePayload S isMap ts7 with
  | error x => rw [h8] at h; cases h
  | ok r8 =>
  obtain ⟨es, ts8⟩ := r8
  obtain ⟨inner, rfl, hes⟩ := parsePayload_inv hE h8
  rw [h8] at h; simp only at h
  cases h
  exact ⟨.ident name :: colon :: .ident al :: lt :: (tys ++ [gt, comma, .group .brace inner]), by simp,
    LongToks.mk hname hal hcolon hlt htys hgt hcomma hes, rfl, rfl, rfl⟩

theorem parseVisibility_inv {ts rest : List Tk} {vis : Vis} (h : parseVisibility S ts = .ok (vis, rest)) :
    ∃ v, ts = v ++ rest ∧ VisToks S.modPath v vis := by
  unfold parseVisibility at h
  split at h
  · cases h
    exact ⟨_, rfl, VisToks.empty⟩
  · rename_i s r
    split at h
    · rename_i hs
      subst hs
      split at h
      · rename_i w r'
        split at h
        · rename_i hw
          cases h
          exact ⟨[.ident "pub", .group .paren [.ident w]], rfl, VisToks.word hw⟩
        · split at h
          · cases h
          · cases h
            exact ⟨[.ident "pub"], rfl, VisToks.pub⟩
      · rename_i w p r' hne
        split at h
        · rename_i hw
          subst hw
          split at h
          · rename_i hp
            cases h
            refine ⟨[.ident "pub", .group .paren (.ident "in" :: p)], rfl, VisToks.inPath ?_ hp⟩
            rintro rfl
            exact hne rfl
          · cases h
        · cases h
          exact ⟨[.ident "pub"], rfl, VisToks.pub⟩
      · cases h
        exact ⟨[.ident "pub"], rfl, VisToks.pub⟩
    · cases h
      exact ⟨[], rfl, VisToks.none⟩
  · cases h
    exact ⟨[], rfl, VisToks.none⟩

theorem peekWord_inv {w : String} {ts : List Tk} (h : peekWord w ts = true) : ts = .ident w :: ts.drop 1 := by
  unfold peekWord at h
  split at h
  · rw [eq_of_beq h]; rfl
  · cases h

theorem parse2_sound (hE : Consumes S.expr) (hT : Consumes S.ty) {ts : List Tk} {call : ParsedCall E T} (h : parse2 S isMap ts = .ok call) :
    CallToks S.modPath (ReadsAsIn S.expr) (ReadsAsIn S.ty) isMap ts call := by
  unfold parse2 at h
  cases hc : parseCall S isMap ts with
  | error m => rw [hc] at h; cases h
  | ok r =>
    obtain ⟨call', rest⟩ := r
    rw [hc] at h
    simp only [bind, Except.bind] at h
    split at h
    · rename_i hr
      cases h
      rw [List.isEmpty_iff.1 hr] at hc
      unfold parseCall at hc
      cases hv : parseVisibility S ts with
      | error m => rw [hv] at hc; cases hc
      | ok r =>
        obtain ⟨vis, ts1⟩ := r
        obtain ⟨v, rfl, hvis⟩ := parseVisibility_inv hv
        rw [hv] at hc
        simp only [bind, Except.bind] at hc
        split at hc
        · cases hc
        · rename_i hex
          have hlong : ∀ (st mu : Bool) (n : Nat) (m : LongForm E T), parseLongForm S isMap vis st mu (ts1.drop n) = .ok (m, []) →
              ∃ name al kt vt es, LongToks (ReadsAsIn S.expr) (ReadsAsIn S.ty) isMap (ts1.drop n) name al kt vt es ∧
                m = { varName := name, typeName := al, keyType := kt, valueType := vt, entries := es, visibility := vis,
                      isStatic := st, isMutable := mu } := by
            intro st mu n m hl
            obtain ⟨used, hu, h1, h2, h3, h4⟩ := parseLongForm_inv hE hT hl
            rw [List.append_nil] at hu
            rw [hu]
            refine ⟨_, _, _, _, _, h1, ?_⟩
            rw [← h2, ← h3, ← h4]
          split at hc
          · rename_i hst
            cases hl : parseLongForm S isMap vis true false (ts1.drop 1) with
            | error m => rw [hl] at hc; cases hc
            | ok r =>
            obtain ⟨m, rest'⟩ := r
            rw [hl] at hc
            cases hc
            obtain ⟨name, al, kt, vt, es, h1, rfl⟩ := hlong true false 1 m hl
            rw [peekWord_inv hst]
            exact CallToks.static hvis h1
          · rename_i hst
            have hinh : vis = .inherited := by
              cases vis with
              | inherited => rfl
              | pub => simp [Vis.explicit, hst] at hex
              | restricted _ => simp [Vis.explicit, hst] at hex
            subst hinh
            split at hc
            · rename_i hlet
              rw [peekWord_inv hlet]
              split at hc
              · rename_i hmut
                cases hl : parseLongForm S isMap .inherited false true (ts1.drop 2) with
                | error m => rw [hl] at hc; cases hc
                | ok r =>
                obtain ⟨m, rest'⟩ := r
                rw [hl] at hc
                cases hc
                obtain ⟨name, al, kt, vt, es, h1, rfl⟩ := hlong false true 2 m hl
                have h2 := peekWord_inv hmut
                rw [List.drop_drop] at h2
                rw [h2]
                exact CallToks.let_ true hvis h1
              · cases hl : parseLongForm S isMap .inherited false false (ts1.drop 1) with
                | error m => rw [hl] at hc; cases hc
                | ok r =>
                obtain ⟨m, rest'⟩ := r
                rw [hl] at hc
                cases hc
                obtain ⟨name, al, kt, vt, es, h1, rfl⟩ := hlong false false 1 m hl
                exact CallToks.let_ false hvis h1
            · cases hp : parsePayload S isMap ts1 with
              | error m => rw [hp] at hc; cases hc
              | ok r =>
                obtain ⟨es, rest'⟩ := r
                rw [hp] at hc
                cases hc
                obtain ⟨inner, rfl, hes⟩ := parsePayload_inv hE hp
                exact CallToks.short hvis hes
    · cases h

end Frozen.Model
