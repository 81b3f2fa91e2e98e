import Verif.Text.TsNames
import Verif.Text.TsDeclared
import Verif.Props.GoText
import Verif.Props.Plugin
import Verif.Props.TsGenerated

/-!
# The text of generated TypeScript files

`TsTemplates.lean` has the template files of generator/typescript (those of v2/generator/typescript are the same) byte for byte, together
with proofs of what they parse to; `TsText.Generates before version f t` says that the generator prints the text `t` for file `f` of a
request after having answered for the files `before`.  `TsLex.lex` splits text into TypeScript tokens (a line break is a token where it
can end a statement) and fails on anything it does not know.
-/

namespace Props

open Utils Text
open GoText (FileD FieldD)

/-- **C96 (tokens).** For every file whose names are proto identifiers and that follows files of that kind in the request, the generator
prints exactly one text; it splits into the tokens of the TypeScript program `TsText.program` that imports the names recorded so far. -/
theorem C96_tokens (before : List FileD) (version : Bytes) (f : FileD) (hb : ∀ g ∈ before, RustText.FileWf g) (h : RustText.FileWf f)
    (hv : ∀ c ∈ version, c.toNat ≠ 0x0A) (hp : ∀ c ∈ f.path, c.toNat ≠ 0x0A) :
    ∃ names t, TsText.Imports before f names ∧ TsText.Generates before version f t ∧ (∀ u, TsText.Generates before version f u → u = t) ∧
      TsLex.lex (ofBytes t) = some (TsAst.file (TsText.program (names.map TsText.nameBytes) f)) := by
  obtain ⟨names, hn⟩ := TsText.imports_exist hb h
  obtain ⟨t, ht, hl⟩ := TsText.shows_file version (names.map TsText.nameBytes) f _ (Nat.le_refl _) (TsText.file_ok h) hn.words hv hp
  have hg := TsText.generates_of hn ht
  refine ⟨names, t, hn, hg, fun u hu => hu.unique hg, ?_⟩
  rw [TsLex.lex, hl]

/-- **C96 (shipped versions).** The version texts that ship end with a newline.  With them every text starts with the tokens
`, DO NOT EDIT .`; no statement of TypeScript starts with a comma. -/
theorem C96_shipped (lib : Lib) (before : List FileD) (f : FileD) (h : RustText.FileWf f) (hp : ∀ c ∈ f.path, c.toNat ≠ 0x0A)
    (t : Bytes) (ht : TsText.Generates before (@GoText.currentVersion lib) f t) :
    ∃ names, TsText.Imports before f names ∧
      TsLex.lex (ofBytes t) = some ([.op go!",", .word go!"DO", .word go!"NOT", .word go!"EDIT", .op go!"."] ++
        TsAst.file (TsText.program (names.map TsText.nameBytes) f)) := by
  have he : ∃ v, @GoText.currentVersion lib = v ++ [0x0A] ∧ ∀ c ∈ v, c.toNat ≠ 0x0A := by
    cases lib
    · exact ⟨str!"v1.3.0", by decide +kernel, by decide +kernel⟩
    · exact ⟨str!"v2.0.5", by decide +kernel, by decide +kernel⟩
  obtain ⟨v, he, hv⟩ := he
  obtain ⟨names, hn⟩ := ht.imports
  obtain ⟨u, hu, hl⟩ := TsText.shows_file_newline v (names.map TsText.nameBytes) f _ (Nat.le_refl _) (TsText.file_ok h) hn.words hv hp
  rw [← he] at hu
  obtain rfl := ht.unique (TsText.generates_of hn hu)
  exact ⟨names, hn, by rw [TsLex.lex, hl]; rfl⟩

/-- **C96 (imports).** The names are those that the code for the fields of this file and of the files before it uses. -/
theorem C96_imports (before : List FileD) (f : FileD) (names : List String) (h : TsText.Imports before f names) (n : String) :
    n ∈ names ↔ ∃ g ∈ before ++ [f], ∃ t ∈ g.types, ∃ x ∈ t.2, ∃ ns, TsGen.depsField (x.toField g) = some ns ∧ n ∈ ns := by
  obtain ⟨out, h1, h2⟩ := h
  obtain ⟨hl, hx⟩ := C90_ts_exact _ _ h1
  rw [List.getLast?_eq_getElem?] at h2
  rw [hx _ _ h2]
  have hlen : out.length = (before ++ [f]).length := by rw [hl, List.length_map]
  have hmap : ∀ (S : Gen.Schema) (ns : List String), TsGen.imports S = some ns → ∀ n, n ∈ ns ↔ ∃ fs ∈ S.messages, ∃ x ∈ fs, ∃ d, TsGen.depsField x = some d ∧ n ∈ d := by
    intro S ns hS n
    simp only [TsGen.imports, Option.map_eq_some_iff] at hS
    obtain ⟨ds, hd, rfl⟩ := hS
    constructor
    · intro hn
      obtain ⟨d, hd', hn⟩ := List.mem_flatten.mp hn
      obtain ⟨x, hx, he⟩ := TsText.mapM_some_mem hd d hd'
      obtain ⟨fs, hfs, hx⟩ := List.mem_flatten.mp hx
      exact ⟨fs, hfs, x, hx, d, he, hn⟩
    · rintro ⟨fs, hfs, x, hx, d, he, hn⟩
      refine List.mem_flatten.mpr ⟨d, ?_, hn⟩
      have hm : x ∈ S.messages.flatten := List.mem_flatten.mpr ⟨fs, hfs, hx⟩
      clear hx hfs
      revert hd hm
      generalize S.messages.flatten = l
      intro hd hm
      induction l generalizing ds with
      | nil => cases hm
      | cons y l ih =>
        rw [List.mapM_cons] at hd
        simp only [Option.bind_eq_bind, Option.bind_eq_some_iff] at hd
        obtain ⟨z, hz, zs, hzs, e⟩ := hd
        cases e
        rcases List.mem_cons.mp hm with rfl | hm
        · rw [he] at hz; cases hz; exact List.mem_cons_self ..
        · exact List.mem_cons_of_mem _ (ih zs hzs hm)
  constructor
  · rintro ⟨j, S, ns, hj, hS, hi, hn⟩
    rw [List.getElem?_map, Option.map_eq_some_iff] at hS
    obtain ⟨g, hg, rfl⟩ := hS
    obtain ⟨fs, hfs, x, hx, d, hd, hn⟩ := (hmap _ _ hi n).mp hn
    obtain ⟨t, ht, rfl⟩ := List.mem_map.mp hfs
    obtain ⟨y, hy, rfl⟩ := List.mem_map.mp hx
    exact ⟨g, List.mem_of_getElem? hg, t, ht, y, hy, d, hd, hn⟩
  · rintro ⟨g, hg, t, ht, x, hx, d, hd, hn⟩
    obtain ⟨j, hj⟩ := List.getElem?_of_mem hg
    have hjl := (List.getElem?_eq_some_iff.mp hj).1
    have hS : ((before ++ [f]).map FileD.schema)[j]? = some g.schema := by rw [List.getElem?_map, hj]; rfl
    -- names are recorded for every file
    have hsome : ∃ ns, TsGen.imports g.schema = some ns := by
      have : ∀ (l : List Gen.Schema) (deps : List String) (out : List (List String)), Plugin.tsImports deps l = some out → ∀ S ∈ l, ∃ ns, TsGen.imports S = some ns := by
        intro l
        induction l with
        | nil => intro _ _ _ S hS; cases hS
        | cons S l ih =>
          intro deps out ho S' hS'
          unfold Plugin.tsImports at ho
          cases hS : TsGen.imports S with
          | none => rw [hS] at ho; cases ho
          | some ns =>
            rw [hS] at ho
            simp only [Option.map_eq_some_iff] at ho
            obtain ⟨out', ho, _⟩ := ho
            rcases List.mem_cons.mp hS' with rfl | hS'
            · exact ⟨ns, hS⟩
            · exact ih _ _ ho _ hS'
      exact this _ _ _ h1 _ (List.mem_of_getElem? hS)
    obtain ⟨ns, hns⟩ := hsome
    refine ⟨j, g.schema, ns, by omega, hS, hns, (hmap _ _ hns n).mpr ⟨_, List.mem_map_of_mem ht, _, List.mem_map_of_mem hx, d, hd, hn⟩⟩

/-- **C96 (linking).** The package exports all names that the generated file imports only if every field of the file, and of the files
before it in the request, is a singular message field: otherwise the file cannot be linked. -/
theorem C96_links (before : List FileD) (f : FileD) (hb : ∀ g ∈ before, RustText.FileWf g) (h : RustText.FileWf f) (names : List String)
    (hn : TsText.Imports before f names) :
    (∀ n ∈ names, n ∈ TsGen.exported) ↔ ∀ g ∈ before ++ [f], ∀ t ∈ g.types, ∀ x ∈ t.2, x.kind = .message ∧ ∃ r, x.shape = .one r := by
  have hwf : ∀ g ∈ before ++ [f], RustText.FileWf g := by
    intro g hg
    rcases List.mem_append.mp hg with hg | hg
    · exact hb g hg
    · rw [List.mem_singleton] at hg; subst hg; exact h
  constructor
  · intro he g hg t ht x hx
    obtain ⟨ns, hns⟩ := TsText.depsField_some (TsText.file_fields (hwf g hg) t ht x hx) g
    have hmem : ∀ n ∈ ns, n ∈ TsGen.exported := fun n hn' => he n ((C96_imports before f names hn n).mpr ⟨g, hg, t, ht, x, hx, ns, hns, hn'⟩)
    obtain ⟨nm, s, k, ty⟩ := x
    have hk : k ≠ .group := (TsText.file_fields (hwf g hg) t ht _ hx).kind
    cases s with
    | one r =>
      rw [show TsGen.depsField (FieldD.toField g ⟨nm, .one r, k, ty⟩) = some (TsGen.lut (TsGen.encodeLUT k) ++ TsGen.lut (TsGen.decodeLUT k) ++
        (if k = .enum then ["decodeUint32"] else [])) from if_neg hk] at hns
      cases hns
      refine ⟨?_, r, rfl⟩
      revert hmem
      cases k <;> first | contradiction | (intro _; rfl) | (intro hmem; exact absurd hmem (by decide))
    | many =>
      exfalso
      rw [show TsGen.depsField (FieldD.toField g ⟨nm, .many, k, ty⟩) = (TsGen.depsDecodeSlice k).map (TsGen.depsEncodeSlice k ++ ·) from rfl] at hns
      simp only [Option.map_eq_some_iff] at hns
      obtain ⟨d, _, rfl⟩ := hns
      have : "encodeArray" ∈ TsGen.depsEncodeSlice k ++ d := by
        apply List.mem_append_left
        unfold TsGen.depsEncodeSlice
        apply List.mem_append_right
        split <;> simp
      exact absurd (hmem _ this) (by decide)
    | map kk =>
      exfalso
      rw [show TsGen.depsField (FieldD.toField g ⟨nm, .map kk, k, ty⟩) = (TsGen.depsEncodeMap kk k).map (· ++ TsGen.depsDecodeMap kk k) from rfl] at hns
      simp only [Option.map_eq_some_iff] at hns
      obtain ⟨d, _, rfl⟩ := hns
      have : "decodeMap" ∈ d ++ TsGen.depsDecodeMap kk k := by
        apply List.mem_append_right
        simp [TsGen.depsDecodeMap]
      exact absurd (hmem _ this) (by decide)
  · intro he n hn'
    obtain ⟨g, hg, t, ht, x, hx, ns, hns, hm⟩ := (C96_imports before f names hn n).mp hn'
    obtain ⟨hk, r, hs⟩ := he g hg t ht x hx
    obtain ⟨nm, s, k, ty⟩ := x
    simp only at hk hs
    subst hk hs
    rw [show TsGen.depsField (FieldD.toField g ⟨nm, .one r, .message, ty⟩) = some [] from rfl] at hns
    cases hns
    cases hm

/-! ## What the program declares -/

/-- **C96 (declarations).** The classes of the program are those of the messages at any depth, except the entry messages of maps, each as
`TsText.classOf` says; the enums are those of the file and of its top-level messages, numbered in the order of declaration; the
names imported are those of `C96_imports`. -/
theorem C96_declares (deps : List Bytes) (f : FileD) :
    (TsText.program deps f).flatMap TsAst.Item.classes = f.types.map TsText.classOf ∧
    (TsText.program deps f).flatMap TsAst.Item.enums = f.enumTypes.map TsText.enumOf ∧
    (TsText.program deps f).flatMap TsAst.Item.imports = deps.map ofBytes :=
  ⟨TsText.classes_program deps f, TsText.enums_program deps f, TsText.imports_program deps f⟩

/-- Scalars, then repeated fields, then messages and maps. -/
def tsRank (f : FieldD) : Nat :=
  match f.shape with
  | .one _ => if f.kind = .message then 2 else 0
  | .many => 1
  | .map _ => 2

theorem inj_of_nodup {α β : Type} {f : α → β} : ∀ {l : List α}, (l.map f).Nodup → ∀ {a b : α}, a ∈ l → b ∈ l → f a = f b → a = b
  | x :: l, h, a, b, ha, hb, he => by
    rw [List.map_cons, List.nodup_cons] at h
    rcases List.mem_cons.mp ha with ha' | ha' <;> rcases List.mem_cons.mp hb with hb' | hb'
    · rw [ha', hb']
    · subst ha'; exact absurd (he ▸ List.mem_map_of_mem hb') h.1
    · subst hb'; exact absurd (he ▸ List.mem_map_of_mem ha') h.1
    · exact inj_of_nodup h.2 ha' hb' he

theorem pairwise_same (n : Nat) : ∀ (l : List FieldD), (∀ g ∈ l, tsRank g = n) → l.Pairwise fun a b => tsRank a ≤ tsRank b
  | [], _ => .nil
  | x :: l, h => .cons (fun y hy => by rw [h x (List.mem_cons_self ..), h y (List.mem_cons_of_mem _ hy)]; exact Nat.le_refl _)
      (pairwise_same n l fun g hg => h g (List.mem_cons_of_mem _ hg))

theorem ranked {fs : List FieldD} (h : fs.Pairwise fun a b => tsRank a ≤ tsRank b) :
    fs.filter FieldD.isValue ++ fs.filter FieldD.isSlice ++ fs.filter FieldD.isMessage = fs := by
  have hv : ∀ f : FieldD, f.isValue = decide (tsRank f = 0) := fun ⟨n, s, k, t⟩ => by
    cases s <;> simp only [FieldD.isValue, tsRank]
    · by_cases hk : k = .message <;> simp [hk]
    · rfl
    · rfl
  have hs : ∀ f : FieldD, f.isSlice = decide (tsRank f = 1) := fun ⟨n, s, k, t⟩ => by
    cases s <;> simp only [FieldD.isSlice, tsRank]
    · by_cases hk : k = .message <;> simp [hk]
    · rfl
    · rfl
  have hm : ∀ f : FieldD, f.isMessage = decide (tsRank f = 2) := fun ⟨n, s, k, t⟩ => by
    cases s <;> simp only [FieldD.isMessage, tsRank]
    · by_cases hk : k = .message <;> simp [hk]
    · rfl
    · rfl
  have hle : ∀ f : FieldD, tsRank f ≤ 2 := fun ⟨n, s, k, t⟩ => by
    cases s <;> simp only [tsRank]
    · split <;> omega
    · omega
    · omega
  induction fs with
  | nil => rfl
  | cons f fs ih =>
    rw [List.pairwise_cons] at h
    have hi := ih h.2
    have h0 : tsRank f = 0 ∨ tsRank f = 1 ∨ tsRank f = 2 := by have := hle f; omega
    have hnil : ∀ n, n < tsRank f → ∀ p : FieldD → Bool, (∀ g, p g = decide (tsRank g = n)) → fs.filter p = [] := by
      intro n hn p hp
      rw [List.filter_eq_nil_iff]
      intro g hg
      have := h.1 g hg
      rw [hp, decide_eq_true_eq]
      omega
    simp only [List.filter_cons, hv f, hs f, hm f, decide_eq_true_eq]
    rcases h0 with h0 | h0 | h0
    · simp only [h0, if_pos rfl]
      simpa using hi
    · have e := hnil 0 (by omega) _ hv
      rw [e] at hi ⊢
      simp only [h0]
      simpa using hi
    · have e := hnil 0 (by omega) _ hv
      have e' := hnil 1 (by omega) _ hs
      rw [e, e'] at hi ⊢
      simp only [h0]
      simpa using hi

/-- **C96 (constructor).** `decode` hands the constructor its arguments in the order of the parameters exactly if scalar fields are declared
before repeated fields and these before messages and maps. -/
theorem C96_constructor (t : Bytes × List FieldD) (hn : (TsText.classOf t).params.Nodup) :
    (TsText.classOf t).builds = [((TsText.classOf t).name, (TsText.classOf t).params.map (· ++ go!"Temp"))] ↔
      t.2.Pairwise fun a b => tsRank a ≤ tsRank b := by
  obtain ⟨full, fs⟩ := t
  have hp : (TsText.classOf (full, fs)).params.map (· ++ go!"Temp") = fs.map fun f => TsText.temp (TsText.lower f.name) := by
    simp [TsText.classOf, TsText.temp, Function.comp_def]
  have hb : (TsText.classOf (full, fs)).builds = [((TsText.classOf (full, fs)).name,
    (fs.filter FieldD.isValue ++ fs.filter FieldD.isSlice ++ fs.filter FieldD.isMessage).map fun f => TsText.temp (TsText.lower f.name))] := rfl
  rw [hp, hb]
  constructor
  · intro he
    simp only [List.cons.injEq, Prod.mk.injEq, true_and, and_true] at he
    have hperm : ∀ g ∈ fs.filter FieldD.isValue ++ fs.filter FieldD.isSlice ++ fs.filter FieldD.isMessage, g ∈ fs := by
      intro g hg
      simp only [List.mem_append, List.mem_filter] at hg
      rcases hg with (hg | hg) | hg <;> exact hg.1
    have hinj : ∀ a ∈ fs, ∀ b ∈ fs, TsText.temp (TsText.lower a.name) = TsText.temp (TsText.lower b.name) → a = b := by
      intro a ha b hb hab
      have : TsText.lower a.name = TsText.lower b.name := List.append_cancel_right hab
      exact inj_of_nodup hn ha hb this
    have heq : ∀ (l m : List FieldD), (∀ x ∈ l, x ∈ fs) → (∀ x ∈ m, x ∈ fs) → l.map (fun f => TsText.temp (TsText.lower f.name)) = m.map (fun f => TsText.temp (TsText.lower f.name)) → l = m := by
      intro l
      induction l with
      | nil => intro m _ _ h; cases m with
        | nil => rfl
        | cons _ _ => cases h
      | cons x l ih =>
        intro m hl hm h
        cases m with
        | nil => cases h
        | cons y m =>
          simp only [List.map_cons, List.cons.injEq] at h
          rw [hinj x (hl x (List.mem_cons_self ..)) y (hm y (List.mem_cons_self ..)) h.1,
            ih m (fun z hz => hl z (List.mem_cons_of_mem _ hz)) (fun z hz => hm z (List.mem_cons_of_mem _ hz)) h.2]
    have := heq _ _ hperm (fun _ h => h) he
    rw [← this]
    have hr : ∀ g : FieldD, (g.isValue = true → tsRank g = 0) ∧ (g.isSlice = true → tsRank g = 1) ∧ (g.isMessage = true → tsRank g = 2) := fun ⟨n, s, k, ty⟩ => by
      cases s <;> simp [FieldD.isValue, FieldD.isSlice, FieldD.isMessage, tsRank]
    rw [List.pairwise_append, List.pairwise_append]
    have same : ∀ (p : FieldD → Bool) n, (∀ g, p g = true → tsRank g = n) → (fs.filter p).Pairwise fun a b => tsRank a ≤ tsRank b := by
      intro p n hpn
      exact pairwise_same n _ fun g hg => hpn g (List.mem_filter.mp hg).2
    refine ⟨⟨same _ 0 fun g => (hr g).1, same _ 1 fun g => (hr g).2.1, ?_⟩, same _ 2 fun g => (hr g).2.2, ?_⟩
    · intro a ha b hb
      rw [(hr a).1 (List.mem_filter.mp ha).2, (hr b).2.1 (List.mem_filter.mp hb).2]
      decide
    · intro a ha b hb
      rw [(hr b).2.2 (List.mem_filter.mp hb).2]
      rcases List.mem_append.mp ha with ha | ha
      · rw [(hr a).1 (List.mem_filter.mp ha).2]; decide
      · rw [(hr a).2.1 (List.mem_filter.mp ha).2]; decide
  · intro h
    rw [ranked h]

/-! ## A file that meets the hypotheses -/

/-- The example file of C85: one text, of the program `program … orders`; it is not linked. -/
example : ∃ names t, TsText.Imports [] orders names ∧ TsText.Generates [] str!"v1.3.0" orders t ∧
    TsLex.lex (ofBytes t) = some (TsAst.file (TsText.program (names.map TsText.nameBytes) orders)) ∧ ¬ ∀ n ∈ names, n ∈ TsGen.exported := by
  obtain ⟨names, t, hn, h1, _, h2⟩ := C96_tokens [] str!"v1.3.0" orders (by simp) (.of_go orders_wf) (by decide +kernel) (by decide +kernel)
  refine ⟨names, t, hn, h1, h2, fun he => ?_⟩
  have := (C96_links [] orders (by simp) (.of_go orders_wf) names hn).mp he orders (by simp)
  revert this
  decide +kernel

/-- `message A { repeated bool b; bool c; }`: `decode` swaps the two. -/
example : let t : Bytes × List FieldD := (str!"A", [⟨str!"b", .many, .bool, []⟩, ⟨str!"c", .one false, .bool, []⟩])
    (TsText.classOf t).params = [go!"b", go!"c"] ∧ (TsText.classOf t).builds = [(go!"A", [go!"cTemp", go!"bTemp"])] := by
  decide +kernel

/-- Fields `b`, `bTemp`: `decode` declares `bTemp` twice. -/
example : let t : Bytes × List FieldD := (str!"A", [⟨str!"b", .one false, .bool, []⟩, ⟨str!"bTemp", .many, .bool, []⟩])
    (TsText.classOf t).decodes = [go!"decoded", go!"bTemp", go!"bTempTemp", go!"bTemp"] := by
  decide +kernel

/-- With the shipped version text there is a text too, and it is the one of `C96_shipped`. -/
example (lib : Lib) : ∃ t, TsText.Generates [orders] (@GoText.currentVersion lib) orders t := by
  have he : ∃ v, @GoText.currentVersion lib = v ++ [0x0A] ∧ ∀ c ∈ v, c.toNat ≠ 0x0A := by
    cases lib
    · exact ⟨str!"v1.3.0", by decide +kernel, by decide +kernel⟩
    · exact ⟨str!"v2.0.5", by decide +kernel, by decide +kernel⟩
  obtain ⟨v, he, hv⟩ := he
  have hw : RustText.FileWf orders := .of_go orders_wf
  obtain ⟨names, hn⟩ := TsText.imports_exist (before := [orders]) (by simpa using hw) hw
  obtain ⟨u, hu, _⟩ := TsText.shows_file_newline v (names.map TsText.nameBytes) orders _ (Nat.le_refl _) (TsText.file_ok hw) hn.words hv (by decide +kernel)
  rw [← he] at hu
  exact ⟨u, TsText.generates_of hn hu⟩

end Props
