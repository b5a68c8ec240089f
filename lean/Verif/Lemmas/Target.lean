import Verif.Lemmas.MacroLits
import Verif.Props.TargetSpec

/-! # Lemmas: emitted code on a target that differs from the host -/

namespace Frozen.Model

open Frozen Frozen.Spec Frozen.Props

variable {B Q K V : Type}

/-! ## Hash tables looked up with another hash function -/

theorem find?_bucket {eqK : K → K → Bool} {mt : Q → K → Bool} {hk : K → Nat} {hq : Q → Nat} (hh : LawfulHash eqK mt hk hq)
    (es : List (K × V)) (q : Q) (n c : Nat) :
    (es.filter (fun e => hk e.1 % n == c % n)).find? (fun e => mt q e.1) =
      if hq q % n = c % n then es.find? (fun e => mt q e.1) else none := by
  rw [List.find?_filter]
  split
  · rename_i h
    congr 1
    funext e
    cases hm : mt q e.1 with
    | false => simp
    | true => simp [← hh.query q e.1 hm, h]
  · rename_i h
    apply List.find?_eq_none.2
    intro e _
    cases hm : mt q e.1 with
    | false => simp
    | true => simp [← hh.query q e.1 hm, h]

theorem HashMap.get_any {eqK : K → K → Bool} {mt : Q → K → Bool} {hk : K → Nat} {hq : Q → Nat} (hh : LawfulHash eqK mt hk hq)
    {m : HashMap K V} (hm : HashMap.Inv eqK hk m) {hT : Q → Res Nat} {q : Q} {c : Nat} (hc : hT q = .ok c) :
    m.get hT mt q = .ok (if hq q % m.table.slots.length = c % m.table.slots.length then
      (m.table.entries.find? (fun e => mt q e.1)).map (fun e => e.2) else none) := by
  have hf := HashTable.find_spec hm.1 c (fun e : K × V => mt q e.1)
  unfold HashTable.bucketOf at hf
  rw [find?_bucket hh] at hf
  simp only [HashMap.get, hc, hf, bind, Except.bind]
  split <;> rfl

theorem HashMapNC.get_any {eqK : K → K → Bool} {mt : Q → K → Bool} {hk : K → Nat} {hq : Q → Nat} (hh : LawfulHash eqK mt hk hq)
    {m : HashMapNC K V} (hm : HashMapNC.Inv eqK hk m) {hT : Q → Res Nat} {q : Q} {c : Nat} (hc : hT q = .ok c) :
    m.get hT mt q = .ok (if hq q % m.table.slots.length = c % m.table.slots.length then
      (m.table.entries.find? (fun e => mt q e.1)).map (fun e => e.2) else none) := by
  have hb := find?_bucket hh m.table.entries q m.table.slots.length c
  simp only [HashMapNC.get, hc, HashTableNC.find, bind, Except.bind]
  rcases hm.1.getSlot c with ⟨h1, h2⟩ | ⟨i, e, h1, h2, h3⟩
  · have hnil : m.table.entries.filter (fun e => hk e.1 % m.table.slots.length == c % m.table.slots.length) = [] := by
      apply List.filter_eq_nil_iff.2
      intro e he
      simpa using h2 e he
    rw [hnil] at hb
    rw [h1]
    simp only [gt_iff_lt, Nat.lt_irrefl, if_false, Option.map_none]
    split
    · rename_i hs
      rw [if_pos hs] at hb
      rw [← hb]; rfl
    · rfl
  · rw [h3] at hb
    have hp : i + 1 > 0 := by omega
    simp only [h1, if_pos hp, Nat.add_sub_cancel, getUnchecked_ok h2]
    have hl : [e].find? (fun e => mt q e.1) = if mt q e.1 then some e else none := by
      cases h : mt q e.1 <;> simp [h]
    rw [hl] at hb
    by_cases hme : mt q e.1 = true
    · rw [if_pos hme] at hb
      simp only [if_pos hme]
      split
      · rename_i hs
        rw [if_pos hs] at hb
        rw [← hb]
      · rename_i hs
        rw [if_neg hs] at hb
        cases hb
    · rw [if_neg hme] at hb
      simp only [if_neg hme]
      split
      · rename_i hs
        rw [if_pos hs] at hb
        rw [← hb]
      · rfl

/-- What an emitted map answers when the target's hash functions are `fs` and `fsl`. -/
theorem EmitsGood.onTarget [Target] {t : QueryTraits Q K} {eqK : K → K → Bool} {em : Emitter}
    {r : Res (Except String (Item (Emitted K V)))} {es : List (K × V)}
    (hg : EmitsGood t eqK t.equivalent em r (survivors eqK es)) (hv : ValidOptions em) (he : LawfulEq' eqK)
    (hq : LawfulQuery eqK t.equivalent) : EmitsOnTarget t es r := by
  obtain ⟨out, h1, m, h2, h3, h4⟩ := hg.outcome.2 hv
  have hc : ∀ (F : Type) eq' cmp' (fz : FzKind → List (K × V) → Option (Res F)),
      (itemOf em out).ctor.compile eq' cmp' fz = some (.ok (.inl m)) := by rw [itemOf_ctor]; exact h2
  have F := hg.facts h1 (hc Unit (fun _ _ => true) (fun _ _ => .eq) (fun _ _ => none)) he hq
  have hget : ∀ q, (m.entries.find? (fun e => t.equivalent q e.1)).map (fun e => e.2) =
      (lastMatch t.equivalent es q).map (fun e => e.2) := by
    intro q
    have a := (InlineMap.lawful (V := V) t hq).get m h3 q
    have b := F.behaves.lookups.get q
    rw [a] at b
    exact Except.ok.inj b
  refine ⟨itemOf em out, m, h1, hc, fun fs fsl => ⟨?_, ?_⟩⟩
  · intro hn
    have hl := F.behaves.lookups
    obtain ⟨sz, r⟩ := m
    cases r <;> first | (exact ⟨hl.get, hl.getKeyValue, hl.containsKey, hl.getMut⟩) | cases hn
  · intro h n hn
    obtain ⟨sz, r⟩ := m
    obtain ⟨-, h3⟩ := h3
    cases r with
    | hash h' s =>
      cases hn
      obtain ⟨-, hk, hq', hh, hone, hinv⟩ := h3
      obtain ⟨k, hk1, -⟩ := hinv.1.pow
      refine ⟨⟨k, hk1⟩, fun q => ⟨hq' q, hone q, fun b hb => ?_⟩⟩
      exact (HashMap.get_any hh hinv hb).trans (by rw [← hget q]; rfl)
    | hashNC h' s =>
      cases hn
      obtain ⟨-, hk, hq', hh, hone, hinv⟩ := h3
      obtain ⟨k, hk1, -⟩ := hinv.1.pow
      refine ⟨⟨k, hk1⟩, fun q => ⟨hq' q, hone q, fun b hb => ?_⟩⟩
      exact (HashMapNC.get_any hh hinv hb).trans (by rw [← hget q]; rfl)
    | _ => cases hn

/-! ## The literals of scalar collections -/

/-- Every `usize` literal is a length of at most the given sizes or the index of a key; maps that look up by index contain the index of a key, other
maps do not. -/
def LitsOf [Target] (index : B → Nat) (entries : List (CollectionEntry B K V)) (e : Emitted K V) : Prop :=
  (∀ tok ∈ usizeToks e, ∃ n, UsizeLit tok n ∧ (n ≤ 2560 ∨ n ≤ 14 * entries.length ∨ IsLookup e ∧ ∃ x ∈ entries, n = index x.key)) ∧
  (IsLookup e → ∃ tok ∈ usizeToks e, ∃ x ∈ entries, UsizeLit tok (index x.key)) ∧
  (IsLookup e ∨ ScansOrHashes e)

theorem LitsOf.scan [Target] {index : B → Nat} {entries S : List (CollectionEntry B K V)} {g : Generator} (hg : litUsize g.len = some S.length)
    (hl : S.length ≤ entries.length) : LitsOf index entries (g.genScan S) := by
  refine ⟨fun tok ht => ?_, fun h => h.elim, .inr trivial⟩
  simp only [Generator.genScan, usizeToks, List.mem_singleton] at ht
  subst ht
  exact ⟨_, numLit_iff.1 hg, by omega⟩

theorem LitsOf.dense [Target] {index : B → Nat} {entries S : List (CollectionEntry B K V)} {g : Generator} (hg : litUsize g.len = some S.length)
    (hl : S.length ≤ entries.length) {es : List (K × V)} {mn mx : Tok} {a b : Nat} {f l : CollectionEntry B K V} (h1 : UsizeLit mn a)
    (hf : f ∈ entries) (ha : a = index f.key) (h2 : UsizeLit mx b) (hl' : l ∈ entries) (hb : b = index l.key) :
    LitsOf index entries (.dense g.len es mn mx) := by
  subst ha hb
  refine ⟨fun tok ht => ?_, fun _ => ⟨mn, by simp [usizeToks], f, hf, h1⟩, .inl trivial⟩
  simp only [usizeToks, List.mem_cons, List.not_mem_nil, or_false] at ht
  rcases ht with rfl | rfl | rfl
  · exact ⟨_, numLit_iff.1 hg, by omega⟩
  · exact ⟨_, h1, .inr (.inr ⟨trivial, f, hf, rfl⟩)⟩
  · exact ⟨_, h2, .inr (.inr ⟨trivial, l, hl', rfl⟩)⟩

theorem LitsOf.sparse [Target] {index : B → Nat} {entries S : List (CollectionEntry B K V)} {g : Generator} (hg : litUsize g.len = some S.length)
    (hl : S.length ≤ entries.length) {es : List (K × V)} {ns mn mx : Tok} {cm : Magnitude} {lookup : List Tok} {a b n : Nat}
    {f l : CollectionEntry B K V} (hn : UsizeLit ns n) (hn' : n ≤ 2560 ∨ n ≤ 14 * entries.length) (h1 : UsizeLit mn a)
    (hf : f ∈ entries) (ha : a = index f.key) (h2 : UsizeLit mx b) (hl' : l ∈ entries) (hb : b = index l.key) :
    LitsOf index entries (.sparse g.len ns cm es lookup mn mx) := by
  subst ha hb
  refine ⟨fun tok ht => ?_, fun _ => ⟨mn, by simp [usizeToks], f, hf, h1⟩, .inl trivial⟩
  simp only [usizeToks, List.mem_cons, List.not_mem_nil, or_false] at ht
  rcases ht with rfl | rfl | rfl | rfl
  · exact ⟨_, numLit_iff.1 hg, by omega⟩
  · exact ⟨_, hn, by omega⟩
  · exact ⟨_, h1, .inr (.inr ⟨trivial, f, hf, rfl⟩)⟩
  · exact ⟨_, h2, .inr (.inr ⟨trivial, l, hl', rfl⟩)⟩

theorem LitsOf.hash [Target] {index hash : B → Nat} {entries S : List (CollectionEntry B K V)} {g : Generator} {sort : Sorter (CollectionEntry B K V)}
    (hsort : SorterOk sort) (hg : litUsize g.len = some S.length) (hne : S ≠ []) (hsz : S.length < sizeLimit) (hl : S.length ≤ entries.length)
    {out : Emitted K V} (h : g.genHash sort S hash .scalar = .ok out) :
    LitsOf index entries out := by
  have hu := target_cases
  obtain ⟨ht, hnew, hok, hperm, hmax⟩ := (HashTable.new_spec .large hsort S (fun x => hash x.key) hsz).1
    (by show S.length ≤ usizeMax; omega)
  obtain ⟨-, hslots⟩ := HashTable.new_shape hsort hnew
  have hslots := hslots hne hsz
  have hgr := growth_le S.length
  obtain ⟨r, hr⟩ := hasCollisions_ok hok
  unfold Generator.genHash at h
  simp only [hnew, unwrapR, hr, bind, Except.bind] at h
  have key : ∀ tok ∈ [g.len, digits ht.slots.length], ∃ n, UsizeLit tok n ∧
      (n ≤ 2560 ∨ n ≤ 14 * entries.length ∨ IsLookup out ∧ ∃ x ∈ entries, n = index x.key) := by
    intro tok htok
    simp only [List.mem_cons, List.not_mem_nil, or_false] at htok
    rcases htok with rfl | rfl
    · exact ⟨_, numLit_iff.1 hg, by omega⟩
    · exact ⟨_, numLit_iff.1 (litUsize_digits (by omega)), by omega⟩
  cases r <;> simp only [Bool.false_eq_true, if_true, if_false] at h <;> cases h <;>
    exact ⟨by simpa [usizeToks, usizeToks.hasherToks] using key, fun h => h.elim, .inr trivial⟩

theorem Emitter.emitScalar_lits [Target] {em : Emitter} {unit : V} {b : Build} {sort : Sorter (CollectionEntry B K V)}
    (hsort : SorterOk sort) {cmpB : B → B → Ordering} {index : B → Nat} (hB : LawfulScalar cmpB index)
    {entries : List (CollectionEntry B K V)} (hn : entries.length < tableLimit) {item : Item (Emitted K V)}
    (hi : em.emitScalar unit b sort cmpB index entries = .ok (.ok item)) : LitsOf index entries item.ctor := by
  have hu := target_cases
  have hspan : ∀ x ∈ entries, ∀ y ∈ entries, index x.key - index y.key < usizeMax := by
    intro x hx y hy
    by_contra hge
    have := hB.bound x.key
    exact Emitter.emitScalar_over b hB hx hy (by omega) item hi
  obtain ⟨hle, hsub⟩ := sad_subset (em.cleanValues unit entries) (fun x y => cmpB x.key y.key)
  have hst := sortedAndDedupped_strict (hB.lawfulCmp.comap (fun x : CollectionEntry B K V => x.key)) (em.cleanValues unit entries)
  rw [Emitter.cleanValues_length] at hle
  unfold Emitter.emitScalar at hi
  generalize sortedAndDedupped (em.cleanValues unit entries) (fun x y => cmpB x.key y.key) = S at *
  have hg : litUsize (Generator.new S.length).len = some S.length := Generator.new_len (by omega)
  simp only [bind, Except.bind] at hi
  by_cases hne : S = []
  · subst hne
    simp only [List.map_nil, analyzeScalarKeys, scalarScan, List.foldl_nil, if_true] at hi
    have hf := Emitter.finish_inv hi
    generalize item.ctor = out at hf ⊢
    cases hf
    exact LitsOf.scan hg (by omega)
  · have hkeys : (S.map (fun e => (e.key, ()))).Pairwise (fun a b => cmpB a.1 b.1 = .lt) := by
      rw [List.pairwise_map]; exact hst
    obtain ⟨f, l, hf, hl, hfm, hlm, -, -⟩ := map_ends hne
    obtain ⟨f', l', hf', hl', hfl, hall⟩ := ascending_ends hB hkeys (by simpa using hne)
    have e1 : f' = (f.key, ()) := by rw [List.getElem?_map, hf] at hf'; exact (Option.some.inj hf').symm
    have e2 : l' = (l.key, ()) := by rw [List.length_map, List.getElem?_map, hl] at hl'; exact (Option.some.inj hl').symm
    subst e1 e2
    rw [List.length_map] at hfl
    simp only [] at hfl hall
    obtain ⟨f0, hf0, k1, -⟩ := Emitter.cleanValues_mem (hsub f hfm)
    obtain ⟨l0, hl0, k2, -⟩ := Emitter.cleanValues_mem (hsub l hlm)
    have hsp : index l.key - index f.key < usizeMax := by
      rw [k1, k2]
      exact hspan l0 hl0 f0 hf0
    have hA := analyzeScalarKeys_spec b (l := S.map (fun e => index e.key)) (by
        intro x hx
        obtain ⟨e, _, rfl⟩ := List.mem_map.1 hx
        exact hB.bound _) (mn := index f.key) (mx := index l.key)
      (List.mem_map.2 ⟨f, hfm, rfl⟩) (List.mem_map.2 ⟨l, hlm, rfl⟩) (by
        intro x hx
        obtain ⟨e, he, rfl⟩ := List.mem_map.1 hx
        obtain ⟨i, hi⟩ := List.getElem?_of_mem he
        have := hall i (e.key, ()) (by rw [List.getElem?_map, hi]; rfl)
        simp only [] at this
        omega) hsp
    rw [hA] at hi
    simp only [List.length_map] at hi
    have hgen := Emitter.finish_inv hi
    generalize item.ctor = out at hgen ⊢
    have b1 := hB.bound f.key
    have b2 := hB.bound l.key
    have hidx0 : idx S 0 = .ok f := by simp only [idx, hf]
    have hidxl : idx S (S.length - 1) = .ok l := by simp only [idx, hl]
    have hpos : 1 ≤ S.length := List.length_pos_iff.2 hne
    have hsub1 : subM b S.length 1 = .ok (S.length - 1) := subM_ok b hpos
    cases hd : scalarDecide (index l.key - index f.key + 1) S.length with
    | denseRange =>
      rw [hd] at hgen
      have := scalarDecide_dense hd
      simp only [Generator.genScalar, Generator.genDense, hidx0, hsub1, hidxl, bind, Except.bind] at hgen
      rw [← Except.ok.inj hgen]
      exact LitsOf.dense hg (by omega) (numLit_iff.1 (litUsize_usizeTok_inject b1)) hf0 (by rw [k1])
        (numLit_iff.1 (litUsize_usizeTok_inject b2)) hl0 (by rw [k2])
    | sparseRange =>
      rw [hd] at hgen
      have := scalarDecide_sparse hd
      simp only [Generator.genScalar, Generator.genSparse, hidx0, hsub1, hidxl, subM_ok b (show index f.key ≤ index l.key by omega),
        addM_ok b (show index l.key - index f.key + 1 ≤ usizeMax by omega), bind, Except.bind] at hgen
      split at hgen
      · cases hgen
      · rename_i zeros hz
        split at hgen
        · cases hgen
        · rename_i L hL
          rw [← Except.ok.inj hgen]
          obtain ⟨h1, h2⟩ := genFillLookup_bound b S 0 zeros L hL
          have hz' : zeros = List.replicate (index l.key - index f.key + 1) 0 := by
            rw [vecZeroed_eq] at hz
            split at hz
            · cases hz; rfl
            · cases hz
          subst hz'
          rw [List.length_replicate] at h1
          refine LitsOf.sparse hg (by omega) (numLit_iff.1 (litUsize_digits (by omega))) ?_ (numLit_iff.1 (litUsize_usizeTok b1)) hf0
            (by rw [k1]) (numLit_iff.1 (litUsize_usizeTok b2)) hl0 (by rw [k2])
          omega
    | general =>
      rw [hd] at hgen
      simp only [Generator.genScalar] at hgen
      by_cases h8 : S.length < 8
      · rw [if_pos h8] at hgen
        cases hgen
        exact LitsOf.scan hg (by omega)
      · rw [if_neg h8] at hgen
        exact LitsOf.hash hsort hg hne (by omega) (by omega) hgen

end Frozen.Model
