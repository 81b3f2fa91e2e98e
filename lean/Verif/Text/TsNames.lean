import Verif.Text.TsPrintFile
import Verif.Text.RustNames
import Verif.Text.GoLookup

/-!
# Names in generated TypeScript files; what the TypeScript generator prints is unique
-/

namespace TsText

open Utils Tmpl Text TsAst
open Gen (PKind Field)
open RustLex (IsWord)
open GoText (FieldD MsgD FileD IsIdent IsDotted EnumWf)
open Package (EnumD qualify)
open RustText (FieldWf MsgWf FileWf isWord_ident isWord_camelCase)

/-! ## The generator -/

theorem exec_head_mono {version : Bytes} {deps : List Bytes} {f : FileD} {b : Body} {k m : Nat} {t : Bytes} (hkm : k ≤ m)
    (h : exec lang (Tmpl.run lang TsTempl.defs k) b [(0, .data (data version deps f))] (.data (data version deps f)) = some t) :
    exec lang (Tmpl.run lang TsTempl.defs m) b [(0, .data (data version deps f))] (.data (data version deps f)) = some t :=
  exec_mono lang (run_mono lang TsTempl.defs hkm) _ _ _ _ h

/-- The bytes of a name of ASCII characters. -/
def nameBytes (s : String) : Bytes := s.toList.map fun c => BitVec.ofNat 8 c.toNat

/-- The text of the last file when the generator answers a request for the files `before` and then `f`, if there is one: the template files
are parsed (generator.go 88), the names that the files use are recorded (168-172; they are kept from file to file), `body.templ` and
`head.templ` are executed on the descriptors, and the head is put before the body (139-166). -/
def Generates (before : List FileD) (version : Bytes) (f : FileD) (t : Bytes) : Prop :=
  ∃ defs body head fuel out names x y, TsTempl.parsed = some defs ∧ Tmpl.parseBody TsTempl.bodySrc = some body ∧ Tmpl.parseBody TsTempl.headSrc = some head ∧
    Plugin.tsImports [] ((before ++ [f]).map FileD.schema) = some out ∧ out.getLast? = some names ∧
    Tmpl.exec lang (Tmpl.run lang defs fuel) body [(0, .data (data version (names.map nameBytes) f))] (.data (data version (names.map nameBytes) f)) = some y ∧
    Tmpl.exec lang (Tmpl.run lang defs fuel) head [(0, .data (data version (names.map nameBytes) f))] (.data (data version (names.map nameBytes) f)) = some x ∧
    t = x ++ y

/-- The names that the last file of a request imports. -/
def Imports (before : List FileD) (f : FileD) (names : List String) : Prop :=
  ∃ out, Plugin.tsImports [] ((before ++ [f]).map FileD.schema) = some out ∧ out.getLast? = some names

theorem Imports.unique {before : List FileD} {f : FileD} {a b : List String} (h : Imports before f a) (h' : Imports before f b) : a = b := by
  obtain ⟨o, h1, h2⟩ := h
  obtain ⟨o', h1', h2'⟩ := h'
  rw [h1] at h1'
  cases h1'
  rw [h2] at h2'
  exact Option.some.inj h2'

theorem generates_of {before : List FileD} {version : Bytes} {f : FileD} {t : Bytes} {fuel : Nat} {names : List String} (hn : Imports before f names)
    (h : generate version (names.map nameBytes) fuel f = some t) : Generates before version f t := by
  obtain ⟨out, h1, h2⟩ := hn
  simp only [generate, Option.bind_eq_bind, Option.bind_eq_some_iff, Option.some.injEq] at h
  obtain ⟨y, hy, x, hx, rfl⟩ := h
  exact ⟨_, _, _, fuel, out, names, x, y, TsTempl.parsed_eq, TsTempl.body_parses, TsTempl.head_parses, h1, h2, hy, hx, rfl⟩

theorem Generates.imports {before : List FileD} {version : Bytes} {f : FileD} {t : Bytes} (h : Generates before version f t) : ∃ names, Imports before f names := by
  obtain ⟨_, _, _, _, out, names, _, _, _, _, _, h1, h2, _⟩ := h
  exact ⟨names, out, h1, h2⟩

theorem Generates.unique {before : List FileD} {version : Bytes} {f : FileD} {t u : Bytes} (h1 : Generates before version f t)
    (h2 : Generates before version f u) : t = u := by
  obtain ⟨_, _, _, k, o, n, x, y, p1, p2, p3, p4, p5, p6, p7, rfl⟩ := h1
  obtain ⟨_, _, _, m, o', n', x', y', q1, q2, q3, q4, q5, q6, q7, rfl⟩ := h2
  rw [p4] at q4
  cases q4
  rw [p5] at q5
  cases q5
  rw [TsTempl.parsed_eq] at p1 q1
  rw [TsTempl.body_parses] at p2 q2
  rw [TsTempl.head_parses] at p3 q3
  cases p1; cases p2; cases p3; cases q1; cases q2; cases q3
  have a := exec_head_mono (Nat.le_max_left k m) p6
  have b := exec_head_mono (Nat.le_max_right k m) q6
  have c := exec_head_mono (Nat.le_max_left k m) p7
  have d := exec_head_mono (Nat.le_max_right k m) q7
  rw [a] at b
  rw [c] at d
  cases b; cases d
  rfl

/-! ## Imported names -/

/-- All names that the generator can import. -/
def known : List String :=
  ["encodeBoolean", "encodeInt32", "encodeUint32", "encodeInt64", "encodeUint64", "encodeString", "encodeFloat32", "encodeFloat64", "encodeBytes",
   "decodeBoolean", "decodeInt32", "decodeUint32", "decodeInt64", "decodeUint64", "decodeString", "decodeFloat32", "decodeFloat64", "decodeBytes",
   "encodeArray", "decodeArray", "encodeMap", "decodeMap", "Kind"]

def isWordB : Bytes → Bool
  | c :: cs => isLetter c && cs.all isWordChar
  | [] => false

theorem isWord_known : ∀ s ∈ known, IsWord (nameBytes s) := by
  have h : ∀ s ∈ known, isWordB (nameBytes s) = true := by decide +kernel
  intro s hs
  have := h s hs
  revert this
  cases nameBytes s with
  | nil => intro h; cases h
  | cons c cs =>
    intro h
    simp only [isWordB, Bool.and_eq_true] at h
    exact isWord_of h.1 h.2

theorem lut_known (k : PKind) : (∀ n ∈ TsGen.lut (TsGen.encodeLUT k), n ∈ known) ∧ ∀ n ∈ TsGen.lut (TsGen.decodeLUT k), n ∈ known := by
  cases k <;> decide

theorem depsField_known {f : Field} {ds : List String} (h : TsGen.depsField f = some ds) : ∀ n ∈ ds, n ∈ known := by
  cases f with
  | one k r c =>
    unfold TsGen.depsField at h
    cases k <;> first | (cases h; done) | (cases h; decide)
  | many k r =>
    unfold TsGen.depsField at h
    cases k <;> first | (cases h; done) | (cases h; decide)
  | map kk k r =>
    simp only [TsGen.depsField, Option.map_eq_some_iff] at h
    obtain ⟨d, hd, rfl⟩ := h
    have h1 : ∀ n ∈ d, n ∈ known := by
      unfold TsGen.depsEncodeMap at hd
      split at hd
      · cases hd
        intro n hn
        simp only [List.mem_append] at hn
        rcases hn with (((hn | hn) | hn) | hn) | hn
        · revert n hn; decide
        · exact (lut_known kk).1 n hn
        · split at hn
          · revert n hn; decide
          · cases hn
        · exact (lut_known k).1 n hn
        · split at hn
          · revert n hn; decide
          · cases hn
      · cases hd
    intro n hn
    rcases List.mem_append.mp hn with hn | hn
    · exact h1 n hn
    · simp only [TsGen.depsDecodeMap, List.mem_append] at hn
      rcases hn with (((hn | hn) | hn) | hn) | hn
      · exact (lut_known kk).2 n hn
      · exact (lut_known k).2 n hn
      · exact (by decide : ∀ n ∈ ["decodeMap"], n ∈ known) n hn
      · split at hn
        · exact (by decide : ∀ n ∈ ["decodeUint32"], n ∈ known) n hn
        · cases hn
      · split at hn
        · exact (by decide : ∀ n ∈ ["decodeUint32"], n ∈ known) n hn
        · cases hn

theorem mapM_some_mem {α β : Type} {g : α → Option β} : ∀ {l : List α} {ds : List β}, l.mapM g = some ds → ∀ d ∈ ds, ∃ x ∈ l, g x = some d
  | [], ds, h, d, hd => by cases h; cases hd
  | x :: l, ds, h, d, hd => by
    rw [List.mapM_cons] at h
    simp only [Option.bind_eq_bind, Option.bind_eq_some_iff] at h
    obtain ⟨y, hy, ys, hys, he⟩ := h
    cases he
    rcases List.mem_cons.mp hd with rfl | hd
    · exact ⟨x, List.mem_cons_self .., hy⟩
    · obtain ⟨z, hz, he⟩ := mapM_some_mem hys d hd
      exact ⟨z, List.mem_cons_of_mem _ hz, he⟩

theorem imports_known {S : Gen.Schema} {ns : List String} (h : TsGen.imports S = some ns) : ∀ n ∈ ns, n ∈ known := by
  simp only [TsGen.imports, Option.map_eq_some_iff] at h
  obtain ⟨ds, hd, rfl⟩ := h
  intro n hn
  obtain ⟨d, hd', hn⟩ := List.mem_flatten.mp hn
  obtain ⟨f, _, hf⟩ := mapM_some_mem hd d hd'
  exact depsField_known hf n hn

theorem tsImports_known (files : List Gen.Schema) : ∀ (deps : List String) (out : List (List String)), (∀ n ∈ deps, n ∈ known) →
    Plugin.tsImports deps files = some out → ∀ l ∈ out, ∀ n ∈ l, n ∈ known := by
  induction files with
  | nil => intro deps out _ h; cases h; intro l hl; cases hl
  | cons S rest ih =>
    intro deps out hd h
    unfold Plugin.tsImports at h
    cases hS : TsGen.imports S with
    | none => rw [hS] at h; cases h
    | some ns =>
      rw [hS] at h
      simp only [Option.map_eq_some_iff] at h
      obtain ⟨out', ho, rfl⟩ := h
      have hr : ∀ n ∈ Plugin.record deps ns, n ∈ known := by
        intro n hn
        rcases (Plugin.mem_record n deps ns).mp hn with hn | hn
        · exact hd n hn
        · exact imports_known hS n hn
      intro l hl
      rcases List.mem_cons.mp hl with rfl | hl
      · exact hr
      · exact ih _ _ hr ho l hl

theorem Imports.words {before : List FileD} {f : FileD} {names : List String} (h : Imports before f names) : ∀ s ∈ names.map nameBytes, IsWord s := by
  obtain ⟨out, h1, h2⟩ := h
  intro s hs
  obtain ⟨n, hn, rfl⟩ := List.mem_map.mp hs
  exact isWord_known n (tsImports_known _ [] out (by simp) h1 names (List.mem_of_getLast? h2) n hn)

/-! ## Files -/

theorem isWord_lower {s : Bytes} (h : IsIdent s) : IsWord (lowercaseCamelCase s) := by
  obtain ⟨c, cs, rfl, hc, hs⟩ := h
  refine ⟨_, cs, rfl, ?_, hs⟩
  have h1 : ∀ c : Byte, (isLower c = true ∨ isUpper c = true) → isLetter (if isUpper c = true then c ^^^ 0x20 else c) = true := by decide +kernel
  exact h1 c hc

theorem field_ok {f : FieldD} (h : FieldWf f) : FieldOk f :=
  ⟨isWord_lower h.name, h.kind, fun hk => isWord_camelCase (h.type hk), h.key⟩

theorem enum_ok {s : Bytes} {e : EnumD} (hs : s = [] ∨ IsDotted s) (h : EnumWf e) : EnumOk s e :=
  ⟨isWord_camelCase (.qualify hs h.1), fun v hv => isWord_ident (h.2 v hv)⟩

theorem msg_ok {m : MsgD} (h : MsgWf m) : ∀ {s : Bytes}, (s = [] ∨ IsDotted s) → MsgOk s m := by
  induction h with
  | mk hn hf he _ ih =>
    intro s hs
    have hq := IsDotted.qualify hs hn
    exact .mk (isWord_camelCase hq) (fun f hf' => field_ok (hf f hf')) (fun x hx => enum_ok (.inr hq) (he x hx)) (fun m hm => ih m hm (.inr hq))

theorem file_ok {f : FileD} (h : FileWf f) : FileOk f :=
  ⟨fun x hx => enum_ok h.package (h.enums x hx), fun m hm => msg_ok (h.messages m hm) h.package⟩

theorem typesAll_flatMap (s : Bytes) (ms : List MsgD) : GoText.typesAll s ms = ms.flatMap fun m => if m.isEntry then [] else m.types s := by
  induction ms with
  | nil => rfl
  | cons m ms ih => obtain ⟨n, e, fs, es, ms'⟩ := m; rw [GoText.typesAll, ih]; rfl

theorem types_fields {m : MsgD} (h : MsgWf m) : ∀ (s : Bytes), ∀ t ∈ m.types s, ∀ g ∈ t.2, FieldWf g := by
  induction h with
  | @mk name e fs es ms _ hf _ _ ih =>
    intro s t ht g hg
    rw [MsgD.types, typesAll_flatMap, List.mem_append] at ht
    rcases ht with ht | ht
    · obtain ⟨m, hm, ht⟩ := List.mem_flatMap.mp ht
      split at ht
      · cases ht
      · exact ih m hm _ t ht g hg
    · rw [List.mem_singleton] at ht
      subst ht
      exact hf g hg

theorem file_fields {f : FileD} (h : FileWf f) : ∀ t ∈ f.types, ∀ g ∈ t.2, FieldWf g := by
  intro t ht
  obtain ⟨m, hm, ht⟩ := List.mem_flatMap.mp ht
  exact types_fields (h.messages m hm) _ t ht

theorem mapM_isSome {α β : Type} {g : α → Option β} : ∀ {l : List α}, (∀ x ∈ l, ∃ y, g x = some y) → ∃ ys, l.mapM g = some ys
  | [], _ => ⟨[], rfl⟩
  | x :: l, h => by
    obtain ⟨y, hy⟩ := h x (List.mem_cons_self ..)
    obtain ⟨ys, hys⟩ := mapM_isSome (l := l) fun z hz => h z (List.mem_cons_of_mem _ hz)
    exact ⟨y :: ys, by rw [List.mapM_cons, hy, hys]; rfl⟩

theorem depsField_some {g : FieldD} (h : FieldWf g) (f : FileD) : ∃ ds, TsGen.depsField (g.toField f) = some ds := by
  obtain ⟨n, s, k, t⟩ := g
  have hk : k ≠ .group := h.kind
  cases s with
  | one r => exact ⟨_, if_neg hk⟩
  | many => cases k <;> first | contradiction | exact ⟨_, rfl⟩
  | map kk =>
    have hkk := h.key kk rfl
    have h1 : ∃ a, TsGen.getKind kk = some a := by cases kk <;> first | exact absurd hkk (by decide) | exact ⟨_, rfl⟩
    have h2 : ∃ a, TsGen.getKind k = some a := by cases k <;> first | contradiction | exact ⟨_, rfl⟩
    obtain ⟨a, ha⟩ := h1
    obtain ⟨b, hb⟩ := h2
    show ∃ ds, (TsGen.depsEncodeMap kk k).map (· ++ TsGen.depsDecodeMap kk k) = some ds
    rw [TsGen.depsEncodeMap, ha, hb]
    exact ⟨_, rfl⟩

theorem imports_some {f : FileD} (h : FileWf f) : ∃ ns, TsGen.imports f.schema = some ns := by
  obtain ⟨ds, hd⟩ := mapM_isSome (g := TsGen.depsField) (l := f.schema.messages.flatten) (by
    intro x hx
    obtain ⟨l, hl, hx⟩ := List.mem_flatten.mp hx
    obtain ⟨t, ht, rfl⟩ := List.mem_map.mp hl
    obtain ⟨g, hg, rfl⟩ := List.mem_map.mp hx
    exact depsField_some (file_fields h t ht g hg) f)
  exact ⟨ds.flatten, by rw [TsGen.imports, hd]; rfl⟩

theorem tsImports_some (files : List FileD) (h : ∀ f ∈ files, FileWf f) : ∀ deps, ∃ out, Plugin.tsImports deps (files.map FileD.schema) = some out ∧ out.length = files.length := by
  induction files with
  | nil => exact fun _ => ⟨[], rfl, rfl⟩
  | cons f rest ih =>
    intro deps
    obtain ⟨ns, hn⟩ := imports_some (h f (List.mem_cons_self ..))
    obtain ⟨out, ho, hl⟩ := ih (fun g hg => h g (List.mem_cons_of_mem _ hg)) (Plugin.record deps ns)
    refine ⟨Plugin.record deps ns :: out, ?_, by simp [hl]⟩
    rw [List.map_cons, Plugin.tsImports, hn]
    simp only [ho, Option.map_some]

/-- The names are recorded for every file. -/
theorem imports_exist {before : List FileD} {f : FileD} (hb : ∀ g ∈ before, FileWf g) (hf : FileWf f) : ∃ names, Imports before f names := by
  obtain ⟨out, ho, hl⟩ := tsImports_some (before ++ [f]) (by
    intro g hg
    rcases List.mem_append.mp hg with hg | hg
    · exact hb g hg
    · rw [List.mem_singleton] at hg; subst hg; exact hf) []
  cases hx : out.getLast? with
  | none => rw [List.getLast?_eq_none_iff] at hx; subst hx; simp at hl
  | some names => exact ⟨names, out, ho, hx⟩

end TsText
