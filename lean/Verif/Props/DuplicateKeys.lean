import Verif.Props.RustUntrusted

/-!
# C68: maps with repeated keys

No generated encoder writes a key twice, but the wire format allows it.  `entriesWire es` are the bytes of the entries `es` of a map,
in order; the expected result is stated with `List.lookup` on the entries in reverse order: the last entry of a key counts.
-/

namespace Props

open Gen Spec
open Rust (Cursor Std)
open GoGen (Version v1 v2)

/-- The items of entries with scalar values. -/
def entryItems (es : List (Scalar × Scalar)) : List Item := es.flatMap fun e => [e.1.item, e.2.item]

/-- A map field with these keys and values holds exactly the last value of every key of `es`. -/
def LastWins (es : List (Scalar × Scalar)) (ks : List Scalar) (vs : List V) : Prop :=
  ks.length = vs.length ∧ ks.Nodup ∧ ∀ k, (ks.zip vs).lookup k = (es.reverse.lookup k).map V.scalar

/-! ## Storing entries one by one -/

theorem put_lookup (key : Scalar) (v : V) : ∀ (ks : List Scalar) (vs : List V), ks.length = vs.length → ks.Nodup →
    (GoGen.put key v ks vs).1.length = (GoGen.put key v ks vs).2.length ∧ (GoGen.put key v ks vs).1.Nodup ∧
    (∀ s, s ∈ (GoGen.put key v ks vs).1 ↔ s = key ∨ s ∈ ks) ∧
    ∀ k, ((GoGen.put key v ks vs).1.zip (GoGen.put key v ks vs).2).lookup k = if k = key then some v else (ks.zip vs).lookup k := by
  intro ks
  induction ks with
  | nil =>
    intro vs h _
    cases vs with
    | cons => simp at h
    | nil =>
      refine ⟨rfl, by simp [GoGen.put], by simp [GoGen.put], ?_⟩
      intro k
      by_cases hk : k = key <;> simp [GoGen.put, List.lookup, hk]
      have : (k == key) = false := by simpa using hk
      simp [this]
  | cons k' ks ih =>
    intro vs h hnd
    cases vs with
    | nil => simp at h
    | cons v' vs =>
      rw [List.nodup_cons] at hnd
      obtain ⟨h1, h2, h3, h4⟩ := ih vs (by simpa using h) hnd.2
      rw [GoGen.put]
      split
      · rename_i he
        subst he
        refine ⟨by simpa using h, by simpa using hnd, by simp, ?_⟩
        intro k
        by_cases hk : k = key
        · subst hk; simp [List.lookup]
        · have : (k == key) = false := by simpa using hk
          simp [List.lookup, this, hk]
      · rename_i he
        refine ⟨by simp [h1], ?_, ?_, ?_⟩
        · rw [List.nodup_cons]
          refine ⟨?_, h2⟩
          intro hm
          rcases (h3 _).mp hm with h | h
          · exact he h.symm
          · exact hnd.1 h
        · intro s
          simp only [List.mem_cons, h3]
          constructor
          · rintro (h | h | h)
            · exact .inr (.inl h)
            · exact .inl h
            · exact .inr (.inr h)
          · rintro (h | h | h)
            · exact .inr (.inl h)
            · exact .inl h
            · exact .inr (.inr h)
        · intro k
          simp only [List.zip_cons_cons, List.lookup]
          by_cases hk : k = k'
          · subst hk
            have hne : ¬ k = key := fun h => he h.symm
            simp [hne]
          · have : (k == k') = false := by simpa using hk
            simp only [this, h4]

def putAll (es : List (Scalar × Scalar)) (ks : List Scalar) (vs : List V) : List Scalar × List V :=
  es.foldl (fun p e => GoGen.put e.1 (.scalar e.2) p.1 p.2) (ks, vs)

theorem putAll_lookup : ∀ (es : List (Scalar × Scalar)) (ks : List Scalar) (vs : List V), ks.length = vs.length → ks.Nodup →
    (putAll es ks vs).1.length = (putAll es ks vs).2.length ∧ (putAll es ks vs).1.Nodup ∧
    ∀ k, ((putAll es ks vs).1.zip (putAll es ks vs).2).lookup k = ((es.reverse.lookup k).map V.scalar).or ((ks.zip vs).lookup k) := by
  intro es
  induction es with
  | nil => intro ks vs h hnd; exact ⟨h, hnd, by simp [putAll]⟩
  | cons e es ih =>
    intro ks vs h hnd
    obtain ⟨h1, h2, _, h4⟩ := put_lookup e.1 (.scalar e.2) ks vs h hnd
    obtain ⟨g1, g2, g3⟩ := ih _ _ h1 h2
    refine ⟨g1, g2, ?_⟩
    intro k
    have := g3 k
    rw [h4] at this
    rw [show putAll (e :: es) ks vs = putAll es (GoGen.put e.1 (.scalar e.2) ks vs).1 (GoGen.put e.1 (.scalar e.2) ks vs).2 from rfl, this,
      List.reverse_cons, List.lookup_append]
    cases es.reverse.lookup k with
    | some v => simp
    | none =>
      by_cases hk : k = e.1
      · subst hk; simp [List.lookup]
      · have : (k == e.1) = false := by simpa using hk
        simp [List.lookup, this, hk]

theorem lastWins (es : List (Scalar × Scalar)) : LastWins es (putAll es [] []).1 (putAll es [] []).2 := by
  obtain ⟨h1, h2, h3⟩ := putAll_lookup es [] [] rfl (by simp)
  exact ⟨h1, h2, by simpa using h3⟩

theorem insert_eq (k : Scalar) (v : V) : ∀ (ks : List Scalar) (vs : List V), RustGen.insert k v ks vs = GoGen.put k v ks vs := by
  intro ks
  induction ks with
  | nil => intro vs; cases vs <;> rfl
  | cons k' ks ih =>
    intro vs
    cases vs with
    | nil => rfl
    | cons v' vs => rw [RustGen.insert, GoGen.put, ih]

/-! ## Go -/

theorem go_decMapValue {ver : Version} {rd : GoGen.Codec} (hl : GoGen.Law ver rd) {k : PKind} {r : Nat} {s : Scalar} (hs : s.OfKind k) (hb : k ≠ .bytes)
    (hf : s.Fits) (rec : GoGen.Callees) (t : Bytes) : GoGen.decMapValue rd rec k r (wire (GoGen.itemOf s) ++ t) = .ok t (.scalar s) := by
  obtain ⟨m, e1, e2, _⟩ := GoGen.encodeLUT_scalar (GoGen.ofKind_scalar hs)
  by_cases he : k = .enum
  · subst he
    obtain ⟨w, rfl⟩ := GoGen.enum_cases hs
    show (do
      let s ← GoGen.assignEnum rd .Uint32
      pure (.scalar s) : GoGen.D V) _ = _
    rw [GoGen.itemOf, GoGen.bind_ok (GoGen.assignEnum_wire hl w t)]; rfl
  · obtain ⟨ty, a1, a2⟩ := GoGen.assign_wire hl hs he e2 r [] t hf (.inr rfl)
    have hmb : m ≠ .Bytes := fun h => hb (GoGen.decodeLUT_bytes (h ▸ e2))
    rw [GoGen.decMapValue, e2, a1]
    simp only []
    rw [if_neg he, if_neg hmb, GoGen.bind_ok a2]; rfl

theorem itemOf_item (s : Scalar) : GoGen.itemOf s = s.item := by cases s <;> rfl

theorem go_entries {ver : Version} {rd : GoGen.Codec} (hl : GoGen.Law ver rd) {kk k : PKind} {r : Nat} (hkb : kk ≠ .bytes) (hb : k ≠ .bytes)
    (rec : GoGen.Callees) (t : Bytes) : ∀ (es : List (Scalar × Scalar)) (ks : List Scalar) (vs : List V),
    (∀ e ∈ es, e.1.OfKind kk ∧ e.2.OfKind k ∧ e.1.Fits ∧ e.2.Fits) →
    GoGen.decEntries rd rec kk k r es.length ks vs (wireAll (entryItems es) ++ t) = .ok t (putAll es ks vs) := by
  intro es
  induction es with
  | nil => intros; rfl
  | cons e es ih =>
    intro ks vs h
    obtain ⟨h1, h2, h3, h4⟩ := h e (by simp)
    have hw : wireAll (entryItems (e :: es)) ++ t = wire (GoGen.itemOf e.1) ++ (wire (GoGen.itemOf e.2) ++ (wireAll (entryItems es) ++ t)) := by
      simp [entryItems, wireAll, itemOf_item]
    rw [List.length_cons, GoGen.decEntries, hw, GoGen.bind_ok (GoGen.decKey_wire hl h1 hkb _ h3),
      GoGen.bind_ok (go_decMapValue hl h2 hb h4 rec _)]
    exact ih _ _ (fun e he => h e (by simp [he]))

/-- Generated Go code, v1 and v2: whatever entries the map has on the wire, the last one of every key is kept, and nothing else. -/
theorem C68_go (ver : Version) (hver : ver = v1 ∨ ver = v2) (S : Schema) (m : Nat) (kk k : PKind) (r : Nat)
    (hm : S.fields m = [.one .bool 0 false, .map kk k r]) (hf : (Field.map kk k r).GoSupported)
    (x : Bool) (es : List (Scalar × Scalar)) (hl : es.length < 2 ^ 32)
    (he : ∀ e ∈ es, e.1.OfKind kk ∧ e.2.OfKind k ∧ e.1.Fits ∧ e.2.Fits) (fuel : Nat) (old1 old2 : V) (t : Bytes) :
    ∃ ks vs, GoGen.Decode ver S (fuel + 1) m (.msg [old1, old2])
        (wireAll (.bool x :: .map (BitVec.ofNat 32 es.length) kk.announced k.announced :: entryItems es) ++ t) =
      .ok [.scalar (.bool x), .map ks vs] ∧ LastWins es ks vs := by
  refine ⟨_, _, ?_, lastWins es⟩
  have hlaw := go_law hver
  obtain ⟨f1, f2, f3, f4, f5⟩ := hf
  have hfields : GoGen.GetDecodingFields [.one .bool 0 false, .map kk k r] = some ⟨[1], [], [0]⟩ := by
    simp [GoGen.GetDecodingFields, GoGen.decLoop, Field.Cardinality, Field.IsMap, GoGen.decodeLUT, Field.Kind]
  have hto : (BitVec.ofNat 32 es.length).toNat = es.length := by rw [BitVec.toNat_ofNat, Nat.mod_eq_of_lt hl]
  have hmap : ∀ rec, GoGen.decMessage ver ver.codec rec (.map kk k r) old2
      (wireAll (.map (BitVec.ofNat 32 es.length) kk.announced k.announced :: entryItems es) ++ t) =
      .ok t (.map (putAll es [] []).1 (putAll es [] []).2) := by
    intro rec
    rw [GoGen.decMessage, GoGen.announced_kind f1, GoGen.announced_kind f4]
    simp only []
    rw [GoGen.bind_ok (GoGen.isNil_no hlaw (GoGen.head_wireAll (by simp) _ t))]
    simp only [Bool.false_eq_true, if_false]
    rw [GoGen.wireAll_cons, List.append_assoc,
      GoGen.bind_ok (GoGen.read_wire hlaw (GoV2.Matches.map _ kk.announced k.announced) (by simp [Item.Fits]) (.inr (by simp)) _)]
    simp only [hto]
    rw [GoGen.bind_ok (go_entries hlaw f3 f5 rec t es [] [] he)]; rfl
  have hx := GoGen.decValue_wire hlaw (k := .bool) (s := .bool x) trivial 0 false old1
    (wireAll (.map (BitVec.ofNat 32 es.length) kk.announced k.announced :: entryItems es) ++ t) trivial
  rw [GoGen.itemOf] at hx
  have hd : GoGen.decode ver ver.codec S (fuel + 1) m [old1, old2]
      (wireAll (.bool x :: .map (BitVec.ofNat 32 es.length) kk.announced k.announced :: entryItems es) ++ t) =
      .ok t [.scalar (.bool x), .map (putAll es [] []).1 (putAll es [] []).2] := by
    rw [GoGen.decode, GoGen.bind_ok (GoGen.isNil_no hlaw (GoGen.head_wireAll (by simp) _ t))]
    simp only [Bool.false_eq_true, if_false, hm, hfields]
    rw [if_pos (by simp [GoGen.errUsed]), GoGen.decBody, GoGen.wireAll_cons, List.append_assoc]
    have s1 : GoGen.forFields (GoGen.decValue ver.codec ver.bytesScratch) [.one .bool 0 false, .map kk k r] [0] [old1, old2]
        (wire (.bool x) ++ (wireAll (.map (BitVec.ofNat 32 es.length) kk.announced k.announced :: entryItems es) ++ t)) =
        .ok (wireAll (.map (BitVec.ofNat 32 es.length) kk.announced k.announced :: entryItems es) ++ t) [.scalar (.bool x), old2] := by
      simp only [GoGen.forFields, List.getElem?_cons_zero]
      rw [GoGen.bind_ok hx]; rfl
    rw [GoGen.bind_ok s1, GoGen.forFields]
    refine Eq.trans (b := GoGen.forFields (GoGen.decMessage ver ver.codec ⟨GoGen.callNew ver S fuel, GoGen.decode ver ver.codec S fuel⟩)
      [.one .bool 0 false, .map kk k r] [1] [.scalar (.bool x), old2]
      (wireAll (.map (BitVec.ofNat 32 es.length) kk.announced k.announced :: entryItems es) ++ t)) rfl ?_
    simp only [GoGen.forFields, List.getElem?_cons_succ, List.getElem?_cons_zero]
    rw [GoGen.bind_ok (hmap _)]; rfl
  simp only [GoGen.Decode, hd]

/-! ## Rust -/

theorem rust_entries (std : Std) (S : Schema) (rec : RustGen.Callee) {k : PKind} {r : Nat} (hm : k ≠ .message) (hk : k ≠ .group ∧ k ≠ .string ∧ k ≠ .bytes) :
    ∀ (es : List (Scalar × Scalar)) (ks : List Scalar) (vs : List V),
    (∀ e ∈ es, e.1.OfKind .string ∧ e.2.OfKind k ∧ e.1.RustOk S 0 ∧ e.2.RustOk S r) →
    (∀ i ∈ entryItems es, RustGen.Sound i) ∧
    RustGen.Yields (RustGen.decEntries std S rec .string k r es.length ks vs) (entryItems es) (putAll es ks vs) := by
  intro es
  induction es with
  | nil => intro ks vs _; exact ⟨by simp [entryItems], RustGen.Yields.pure (ks, vs)⟩
  | cons e es ih =>
    intro ks vs h
    obtain ⟨h1, h2, h3, h4⟩ := h e (by simp)
    have ih' := ih (GoGen.put e.1 (.scalar e.2) ks vs).1 (GoGen.put e.1 (.scalar e.2) ks vs).2 (fun e he => h e (by simp [he]))
    have hval : RustGen.Yields (RustGen.decMapValue std S rec k r) [GoGen.itemOf e.2] (.scalar e.2) := by
      obtain ⟨m, e1, e2, _, e4⟩ := RustGen.lut_scalar (r := r) (GoGen.ofKind_scalar h2)
      by_cases he : k = .enum
      · subst he
        obtain ⟨w, hw⟩ := GoGen.enum_cases h2
        rw [hw] at h4 ⊢
        exact RustGen.enum_yields std h4
      · rw [RustGen.decMapValue, e2, e4 he]
        simp only []
        rw [if_neg he]
        exact RustGen.Yields.map (RustGen.assign_yields std h2 he e2 (e4 he) h4) (fun _ => rfl)
    have hkey : RustGen.Yields (RustGen.decKey std .string) [GoGen.itemOf e.1] e.1 :=
      RustGen.assign_yields (r' := 0) std h1 (by simp) rfl rfl h3
    have hval' : ∀ i ∈ [GoGen.itemOf e.2], RustGen.Sound i := by
      intro i hi; simp at hi; subst hi; exact RustGen.sound_itemOf h4
    have hrest : ∀ i ∈ [GoGen.itemOf e.2] ++ entryItems es, RustGen.Sound i := by
      intro i hi
      rcases List.mem_append.mp hi with hi | hi
      · exact hval' i hi
      · exact ih'.1 i hi
    have hit : entryItems (e :: es) = [GoGen.itemOf e.1] ++ ([GoGen.itemOf e.2] ++ entryItems es) := by simp [entryItems, itemOf_item]
    rw [hit]
    refine ⟨?_, ?_⟩
    · intro i hi
      rcases List.mem_append.mp hi with hi | hi
      · simp at hi; subst hi; exact RustGen.sound_itemOf h3
      · exact hrest i hi
    · rw [List.length_cons, RustGen.decEntries]
      refine RustGen.Yields.bind (a := e.1) hkey (RustGen.Yields.bind (a := .scalar e.2) hval ?_ ih'.1) hrest
      rw [insert_eq]
      exact ih'.2

/-- The same for the generated Rust code (maps with string keys and values other than strings and bytes, which are
the ones for which it compiles). -/
theorem C68_rust (std : Std) (S : Schema) (m : Nat) (k : PKind) (r : Nat)
    (hm : S.fields m = [.map .string k r]) (hk : k ≠ .message ∧ k ≠ .group ∧ k ≠ .string ∧ k ≠ .bytes)
    (es : List (Scalar × Scalar)) (hl : es.length < 2 ^ 32)
    (he : ∀ e ∈ es, e.1.OfKind .string ∧ e.2.OfKind k ∧ e.1.RustOk S 0 ∧ e.2.RustOk S r) (fuel : Nat) :
    ∃ ks vs, (RustGen.decode std S (fuel + 1) m
        ⟨wireAll (.map (BitVec.ofNat 32 es.length) kString k.announced :: entryItems es), 0⟩).1 =
      .ok (some [.map ks vs]) ∧ LastWins es ks vs := by
  refine ⟨_, _, ?_, lastWins es⟩
  obtain ⟨h1, h2⟩ := rust_entries std S (RustGen.decode std S fuel) hk.1 hk.2 es [] [] he
  obtain ⟨valKind, q2⟩ := RustGen.getKind_ok hk.2.1
  have q3 : valKind.toU8 = k.announced := by
    cases k <;> simp [RustGen.getKind, RustGen.kindLUT] at q2 hk <;> subst q2 <;> rfl
  have hsnd : ∀ i ∈ Item.map (BitVec.ofNat 32 es.length) kString k.announced :: entryItems es, RustGen.Sound i := by
    intro i hi
    rcases List.mem_cons.mp hi with rfl | hi
    · rw [← q3]; exact RustGen.sound_map _ .String _
    · exact h1 i hi
  have hfields : RustGen.getDecodingFields [.map .string k r] = some ⟨[0], [], []⟩ := by
    simp [RustGen.getDecodingFields, RustGen.decLoop, Field.Cardinality, Field.IsMap, Field.Kind, RustGen.decodeLUT]
  have hmap : RustGen.Yields (RustGen.decMessage std S (RustGen.decode std S fuel) (.map .string k r))
      (Item.map (BitVec.ofNat 32 es.length) kString k.announced :: entryItems es) (.map (putAll es [] []).1 (putAll es [] []).2) := by
    show RustGen.Yields (RustGen.decMap std S (RustGen.decode std S fuel) .string k r >>= fun x => RustGen.okOr x .InvalidMap) _ _
    refine RustGen.Yields.map (a := some (.map (putAll es [] []).1 (putAll es [] []).2)) ?_ (fun _ => rfl)
    intro c t hp hrest ht
    have hcl : RustGen.Clean c.rest := by rw [hrest]; exact RustGen.clean_items hsnd ht
    rw [RustGen.decMap, q2, show RustGen.getKind .string = some .String from rfl]
    simp only []
    rw [RustGen.bind_ok (RustGen.call_ok (RustGen.decode_none_clean std hp hcl))]
    simp only [Bool.false_eq_true, if_false]
    have := RustGen.Yields.bind (f := fun size => RustGen.decEntries std S (RustGen.decode std S fuel) .string k r size [] [] >>=
        fun e => pure (some (V.map e.1 e.2))) (RustGen.yields_map std .String valKind hl .InvalidU32)
      (RustGen.Yields.map (f := fun e : List Scalar × List V => pure (some (V.map e.1 e.2)))
        (b := some (V.map (putAll es [] []).1 (putAll es [] []).2)) h2 (fun _ => rfl)) h1
    rw [q3] at this
    exact this c t hp hrest ht
  generalize hb : wireAll (Item.map (BitVec.ofNat 32 es.length) kString k.announced :: entryItems es) = b at *
  have hrest : (⟨b, 0⟩ : Cursor).rest = wireAll (Item.map (BitVec.ofNat 32 es.length) kString k.announced :: entryItems es) ++ [] := by
    simp [Cursor.rest, hb]
  have hcl : RustGen.Clean (⟨b, 0⟩ : Cursor).rest := by rw [hrest]; exact RustGen.clean_items hsnd (.inl rfl)
  rw [RustGen.decode, RustGen.bind_ok (RustGen.call_ok (RustGen.decode_none_clean std (Nat.zero_le _) hcl))]
  simp only [Bool.false_eq_true, if_false]
  rw [RustGen.bind_ok (RustGen.probe_clean std (Nat.zero_le _) hcl)]
  simp only [hm, hfields]
  have hbody : RustGen.decBody std S (RustGen.decode std S fuel) [.map .string k r] ⟨[0], [], []⟩ ⟨b, 0⟩ =
      (.ok [.map (putAll es [] []).1 (putAll es [] []).2], (⟨b, 0⟩ : Cursor).adv (wireAll (Item.map (BitVec.ofNat 32 es.length) kString k.announced :: entryItems es)).length) := by
    show RustGen.forFields (RustGen.decMessage std S (RustGen.decode std S fuel)) [.map .string k r] [0] [.nil] ⟨b, 0⟩ = _
    simp only [RustGen.forFields, List.getElem?_cons_zero]
    rw [RustGen.bind_ok (hmap ⟨b, 0⟩ [] (Nat.zero_le _) hrest (.inl rfl))]; rfl
  rw [RustGen.bind_ok hbody]; rfl

/-- Three entries, two of them with the same key: the map has two keys, and `1` has the later value. -/
example : LastWins [(.int32 1, .bool true), (.int32 2, .bool true), (.int32 1, .bool false)]
    [.int32 1, .int32 2] [.scalar (.bool false), .scalar (.bool true)] := lastWins [(.int32 1, .bool true), (.int32 2, .bool true), (.int32 1, .bool false)]

/-- The hypotheses of `C68_go` for it. -/
example : (Field.map .int32 .bool 0).GoSupported ∧
    ∀ e ∈ [(Scalar.int32 1, Scalar.bool true), (.int32 2, .bool true), (.int32 1, .bool false)],
      e.1.OfKind .int32 ∧ e.2.OfKind .bool ∧ e.1.Fits ∧ e.2.Fits := by
  simp [Field.GoSupported, Scalar.OfKind, Scalar.Fits]

/-- The theorem applied to that input. -/
example : ∃ ks vs, GoGen.Decode v2 ⟨[[.one .bool 0 false, .map .int32 .bool 0]], []⟩ 1 0 (.msg [.nil, .nilMap])
    (wireAll [.bool true, .map 3 kInt32 kBool, .int32 1, .bool true, .int32 2, .bool true, .int32 1, .bool false] ++ []) =
    .ok [.scalar (.bool true), .map ks vs] ∧
    LastWins [(.int32 1, .bool true), (.int32 2, .bool true), (.int32 1, .bool false)] ks vs :=
  C68_go v2 (.inr rfl) ⟨[[.one .bool 0 false, .map .int32 .bool 0]], []⟩ 0 .int32 .bool 0 rfl (by simp [Field.GoSupported]) true
    [(.int32 1, .bool true), (.int32 2, .bool true), (.int32 1, .bool false)] (by simp) (by simp [Scalar.OfKind, Scalar.Fits]) 0 .nil .nilMap []

end Props
