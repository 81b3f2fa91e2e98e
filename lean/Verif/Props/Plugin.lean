import Verif.Text.Plugin
import Verif.Props.GoText

/-!
# What the plugins answer

`Answers version format req r`: with this version text the Go plugin answers the request `req` with `r`; `format` stands for the
parser and printer of Go source that `protogen` runs on the generated text.
-/

namespace Props

open Utils Text GoAst GoText Plugin

variable {lib : Lib}

/-- What is needed of Go's parser and printer: it accepts a text that the model reads as a program, and keeps the program. -/
def FormatsGo (format : Bytes → Option Bytes) : Prop :=
  ∀ t P, GoParse.Reads t P → ∃ u, format t = some u ∧ GoParse.Reads u P

/-- Go's parser rejects a text whose first token is not `package`. -/
def NeedsPackage (format : Bytes → Option Bytes) : Prop :=
  ∀ t ts, lex (ofBytes t) = some ts → ts.head? ≠ some (.word go!"package") → format t = none

/-- The files of the request that are to be generated. -/
def wantedFiles (req : List ReqFile) : List ReqFile := req.filter (·.wanted)

/-- **C89 (answer).** With a version text without newline, the plugin answers every request whose files are well-formed with one
generated file per file asked for, in the same order, named after it, whose content is the program of that file; files that are only
imported give nothing.  The answer is determined by the request. -/
theorem C89_answer (version : Bytes) (format : Bytes → Option Bytes) (hf : FormatsGo format) (hv : ∀ c ∈ version, c.toNat ≠ 0x0A)
    (req : List ReqFile) (h : ∀ f ∈ req, f.wanted = true → f.desc.Wf ∧ ∀ c ∈ f.desc.path, c.toNat ≠ 0x0A) :
    ∃ fs, Answers version format req (.files fs) ∧ (∀ r, Answers version format req r → r = .files fs) ∧
      fs.map (·.1) = (wantedFiles req).map (fun f => f.stem ++ str!".polyglot.go") ∧
      ∀ (i : Nat) (f : ReqFile) (p : Bytes × Bytes), (wantedFiles req)[i]? = some f → fs[i]? = some p → GoParse.Reads p.2 (program f.desc) := by
  suffices hs : ∃ fs, Answers version format req (.files fs) ∧ fs.map (·.1) = (wantedFiles req).map (fun f => f.stem ++ str!".polyglot.go") ∧
      ∀ (i : Nat) (f : ReqFile) (p : Bytes × Bytes), (wantedFiles req)[i]? = some f → fs[i]? = some p → GoParse.Reads p.2 (program f.desc) by
    obtain ⟨fs, h1, h2, h3⟩ := hs
    exact ⟨fs, h1, fun r hr => hr.unique h1, h2, h3⟩
  induction req with
  | nil => exact ⟨[], ⟨[], .done, rfl⟩, rfl, fun i f p h => by simp [wantedFiles] at h⟩
  | cons f req ih =>
    obtain ⟨fs, ⟨out, ho, hr⟩, h2, h3⟩ := ih fun g hg => h g (List.mem_cons_of_mem _ hg)
    cases hw : f.wanted with
    | false =>
      refine ⟨fs, ⟨out, .skip hw ho, hr⟩, ?_, ?_⟩
      · simpa [wantedFiles, hw] using h2
      · simpa [wantedFiles, hw] using h3
    | true =>
      obtain ⟨hwf, hp⟩ := h f (List.mem_cons_self ..) hw
      obtain ⟨t, ht, _, hread⟩ := C85_reads version f.desc hwf hv hp
      obtain ⟨u, hu, hru⟩ := hf t _ ((hread _).2 rfl)
      refine ⟨(FileName f.stem, u) :: fs, ⟨(FileName f.stem, t) :: out, .file hw ht ho, ?_⟩, ?_, ?_⟩
      · rw [respond_cons, hu, ← hr]
      · simp only [wantedFiles, hw, List.filter_cons_of_pos, List.map_cons, List.cons.injEq]
        exact ⟨rfl, h2⟩
      · simp only [wantedFiles, hw, List.filter_cons_of_pos]
        intro i g p hg hp'
        cases i with
        | zero =>
          simp only [List.getElem?_cons_zero, Option.some.injEq] at hg hp'
          subst hg hp'
          exact hru
        | succ i => exact h3 i g p (by simpa [wantedFiles] using hg) (by simpa using hp')

/-- **C89 (names).** Two files get the same name only if they have the same prefix. -/
theorem C89_names (s t : Bytes) : FileName s = FileName t ↔ s = t :=
  ⟨fun h => List.append_cancel_right h, fun h => h ▸ rfl⟩

/-- **C89 (refuted for the shipped version text).** The version text that ships ends with a newline.  With it the plugin answers every
request for at least one file with an error, whatever the files: no Go code can be generated. -/
theorem C89_shipped_false (format : Bytes → Option Bytes) (hf : NeedsPackage format) (req : List ReqFile)
    (h : ∀ f ∈ req, f.wanted = true → f.desc.Wf ∧ ∀ c ∈ f.desc.path, c.toNat ≠ 0x0A) (hne : ∃ f ∈ req, f.wanted = true) :
    Answers currentVersion format req .error ∧ ∀ r, Answers currentVersion format req r → r = .error := by
  suffices hs : ∃ out, Writes currentVersion req out ∧ ((∃ f ∈ req, f.wanted = true) → respond format out = .error) by
    obtain ⟨out, h1, h2⟩ := hs
    have : Answers currentVersion format req .error := ⟨out, h1, (h2 hne).symm⟩
    exact ⟨this, fun r hr => hr.unique this⟩
  clear hne
  induction req with
  | nil => exact ⟨[], .done, fun ⟨f, hf, _⟩ => by cases hf⟩
  | cons f req ih =>
    obtain ⟨out, ho, hr⟩ := ih fun g hg => h g (List.mem_cons_of_mem _ hg)
    cases hw : f.wanted with
    | false =>
      refine ⟨out, .skip hw ho, fun ⟨g, hg, hgw⟩ => hr ?_⟩
      rcases List.mem_cons.mp hg with rfl | hg
      · rw [hw] at hgw; cases hgw
      · exact ⟨g, hg, hgw⟩
    | true =>
      obtain ⟨hwf, hp⟩ := h f (List.mem_cons_self ..) hw
      obtain ⟨t, ht, _, hl, hpk, _⟩ := C85_shipped f.desc hwf hp
      refine ⟨_, .file hw ht ho, fun _ => ?_⟩
      rw [respond_cons, hf t _ hl (hpk _ hl)]

/-- **C89 (independence).** What the plugin prints for a file does not depend on the rest of the request. -/
theorem C89_independent (version : Bytes) (format : Bytes → Option Bytes) (req req' : List ReqFile) (fs fs' : List (Bytes × Bytes))
    (h : Answers version format req (.files fs)) (h' : Answers version format req' (.files fs')) (f : ReqFile) (hf : f ∈ req) (hf' : f ∈ req') (hw : f.wanted = true) :
    ∃ content, (FileName f.stem, content) ∈ fs ∧ (FileName f.stem, content) ∈ fs' := by
  have key : ∀ (req : List ReqFile) (out : List (Bytes × Bytes)), Writes version req out → ∀ fs, Response.files fs = respond format out → f ∈ req →
      ∃ t u, Generates version f.desc t ∧ format t = some u ∧ (FileName f.stem, u) ∈ fs := by
    intro req out ho
    induction ho with
    | done => intro _ _ h; cases h
    | @skip g _ _ hg _ ih =>
      intro fs hr hm
      rcases List.mem_cons.mp hm with rfl | hm
      · rw [hw] at hg; cases hg
      · exact ih fs hr hm
    | @file g _ out t hg ht _ ih =>
      intro fs hr hm
      rw [respond_cons] at hr
      cases hu : format t with
      | none => simp [hu] at hr
      | some u =>
        cases hrest : respond format out with
        | error => simp [hu, hrest] at hr
        | files rest =>
          simp only [hu, hrest, Response.files.injEq] at hr
          subst hr
          rcases List.mem_cons.mp hm with rfl | hm
          · exact ⟨t, u, ht, hu, List.mem_cons_self ..⟩
          · obtain ⟨t, u, h1, h2, h3⟩ := ih rest hrest.symm hm
            exact ⟨t, u, h1, h2, List.mem_cons_of_mem _ h3⟩
  obtain ⟨out, ho, hr⟩ := h
  obtain ⟨out', ho', hr'⟩ := h'
  obtain ⟨t, u, h1, h2, h3⟩ := key req out ho fs hr hf
  obtain ⟨t', u', h1', h2', h3'⟩ := key req' out' ho' fs' hr' hf'
  rw [h1.unique h1', h2'] at h2
  cases h2
  exact ⟨u, h3, h3'⟩

/-! ## TypeScript -/

/-- **C90 (exact).** In the answer of the TypeScript plugin the `i`-th file imports exactly the names that the code of the files up to and
including it uses, not only its own. -/
theorem C90_ts_exact (files : List Gen.Schema) (out : List (List String)) (h : tsImports [] files = some out) :
    out.length = files.length ∧ ∀ (i : Nat) (names : List String), out[i]? = some names → ∀ n, n ∈ names ↔ ∃ j S ns, j ≤ i ∧ files[j]? = some S ∧ TsGen.imports S = some ns ∧ n ∈ ns := by
  suffices hs : ∀ (deps : List String) (out : List (List String)), tsImports deps files = some out → out.length = files.length ∧ ∀ (i : Nat) (names : List String), out[i]? = some names →
      ∀ n, n ∈ names ↔ n ∈ deps ∨ ∃ j S ns, j ≤ i ∧ files[j]? = some S ∧ TsGen.imports S = some ns ∧ n ∈ ns by
    obtain ⟨h1, h2⟩ := hs [] out h
    exact ⟨h1, fun i names hi n => by rw [h2 i names hi n]; simp⟩
  clear h out
  induction files with
  | nil => intro deps out h; cases h; exact ⟨rfl, fun i names hi => by simp at hi⟩
  | cons S rest ih =>
    intro deps out h
    unfold tsImports at h
    cases hS : TsGen.imports S with
    | none => rw [hS] at h; cases h
    | some ns =>
      rw [hS] at h
      simp only [Option.map_eq_some_iff] at h
      obtain ⟨out', ho', rfl⟩ := h
      obtain ⟨h1, h2⟩ := ih _ _ ho'
      refine ⟨by simp [h1], fun i names hi n => ?_⟩
      cases i with
      | zero =>
        simp only [List.getElem?_cons_zero, Option.some.injEq] at hi
        subst hi
        rw [mem_record]
        refine or_congr Iff.rfl ⟨fun hn => ⟨0, S, ns, Nat.le_refl _, rfl, hS, hn⟩, ?_⟩
        rintro ⟨j, S', ns', hj, hS', hi', hn⟩
        obtain rfl : j = 0 := by omega
        simp only [List.getElem?_cons_zero, Option.some.injEq] at hS'
        subst hS'
        rw [hS] at hi'
        cases hi'
        exact hn
      | succ i =>
        rw [List.getElem?_cons_succ] at hi
        rw [h2 i names hi n, mem_record]
        constructor
        · rintro ((hn | hn) | ⟨j, S', ns', hj, hS', hi', hn⟩)
          · exact .inl hn
          · exact .inr ⟨0, S, ns, by omega, rfl, hS, hn⟩
          · exact .inr ⟨j + 1, S', ns', by omega, by simpa using hS', hi', hn⟩
        · rintro (hn | ⟨j, S', ns', hj, hS', hi', hn⟩)
          · exact .inl (.inl hn)
          · cases j with
            | zero =>
              simp only [List.getElem?_cons_zero, Option.some.injEq] at hS'
              subst hS'
              rw [hS] at hi'
              cases hi'
              exact .inl (.inr hn)
            | succ j => exact .inr ⟨j, S', ns', by omega, by simpa using hS', hi', hn⟩

/-- A file with one message with a string, and one with a bool. -/
def stringSchema : Gen.Schema := ⟨[[.one .string 0 false]], []⟩
def boolSchema : Gen.Schema := ⟨[[.one .bool 0 false]], []⟩

/-- **C90 (refuted).** What the TypeScript plugin prints for a file depends on the rest of the request: after a file that uses `bool`, a
file that does not use it imports its functions too. -/
theorem C90_ts_independent_false :
    tsImports [] [stringSchema] = some [["decodeString", "encodeString"]] ∧
    tsImports [] [boolSchema, stringSchema] = some [["decodeBoolean", "encodeBoolean"], ["decodeBoolean", "decodeString", "encodeBoolean", "encodeString"]] := by
  decide +kernel

/-- The first file of a request is as if it were alone. -/
theorem C90_ts_first_partial (S : Gen.Schema) (rest : List Gen.Schema) (out : List (List String)) (h : tsImports [] (S :: rest) = some out) :
    ∃ names, tsImports [] [S] = some [names] ∧ out.head? = some names := by
  unfold tsImports at h
  cases hS : TsGen.imports S with
  | none => rw [hS] at h; cases h
  | some ns =>
    rw [hS] at h
    simp only [Option.map_eq_some_iff] at h
    obtain ⟨out', _, rfl⟩ := h
    exact ⟨record [] ns, by simp [tsImports, hS], rfl⟩

/-! ## Examples -/

/-- A parser and printer that meets both conditions: the parser of the model. -/
def modelFormat (t : Bytes) : Option Bytes := ((lex (ofBytes t)).bind GoParse.parse).map fun _ => t

theorem modelFormat_formats : FormatsGo modelFormat := by
  intro t P h
  have h' := h
  unfold GoParse.Reads at h'
  exact ⟨t, by simp [modelFormat, h'], h⟩

theorem classify_package (t : Tok) (h : GoParse.classify t = .kpackage) : t = .word go!"package" := by
  cases t with
  | word s =>
    simp only [GoParse.classify] at h
    split at h
    · have key : ∀ l : List (Ident × GoParse.PTok), (∀ p ∈ l, p.2 = .kpackage → p.1 = go!"package") → (l.lookup s).getD .other = .kpackage → s = go!"package" := by
        intro l hl hs
        cases hk : l.lookup s with
        | none => rw [hk] at hs; cases hs
        | some v =>
          rw [hk] at hs
          have : (s, v) ∈ l := by
            clear hl hs
            induction l with
            | nil => cases hk
            | cons p l ih =>
              obtain ⟨a, b⟩ := p
              rw [List.lookup_cons] at hk
              split at hk
              · rename_i he
                cases hk
                rw [beq_iff_eq] at he
                subst he
                exact List.mem_cons_self ..
              · exact List.mem_cons_of_mem _ (ih hk)
          exact hl _ this hs
      rw [key _ (by decide +kernel) h]
    · cases h
  | num s => cases h
  | str s => cases h
  | op s =>
    simp only [GoParse.classify] at h
    have key : ∀ l : List (Frag × GoParse.PTok), (∀ p ∈ l, p.2 ≠ .kpackage) → (l.lookup s).getD .other ≠ .kpackage := by
      intro l hl hs
      induction l with
      | nil => cases hs
      | cons p l ih =>
        obtain ⟨a, b⟩ := p
        rw [List.lookup_cons] at hs
        split at hs
        · exact hl _ (List.mem_cons_self ..) hs
        · exact ih (fun q hq => hl q (List.mem_cons_of_mem _ hq)) hs
    exact absurd h (key _ (by decide +kernel))

theorem decl_package {n : Nat} {ts : List GoParse.PTok} {p : Ident} {rest : List GoParse.PTok} (h : GoParse.decl n ts = some (.package p, rest)) :
    ts.head? = some .kpackage := by
  unfold GoParse.decl at h
  split at h
  · rfl
  all_goals first
    | cases h
    | (exfalso
       first
       | (unfold GoParse.func at h
          repeat' split at h
          all_goals cases h)
       | (repeat' split at h
          all_goals first
            | cases h
            | (unfold GoParse.func at h
               repeat' split at h
               all_goals cases h)))

theorem modelFormat_package : NeedsPackage modelFormat := by
  intro t ts hl hh
  have : GoParse.parse ts = none := by
    unfold GoParse.parse
    split
    · rename_i ds hd
      split
      · exfalso
        rename_i ho
        cases ts with
        | nil =>
          cases hd
          cases ho
        | cons x ts =>
          rw [List.map_cons, GoParse.decls] at hd
          · split at hd
            · rename_i d ts' h1
              simp only [Option.map_eq_some_iff] at hd
              obtain ⟨ds', _, rfl⟩ := hd
              cases d with
              | package p =>
                have := decl_package h1
                simp only [List.head?_cons, Option.some.injEq] at this
                rw [classify_package x this] at hh
                exact hh rfl
              | _ => cases ho
            · cases hd
          · simp
      · rfl
    · rfl
  simp [modelFormat, hl, this]

example : ∃ fs, Answers str!"v2.0.5" modelFormat [⟨orders, str!"a/shop", true⟩, ⟨orders, str!"b/shop", false⟩] (.files fs) ∧
    fs.map (·.1) = [str!"a/shop.polyglot.go"] := by
  obtain ⟨fs, h1, _, h2, _⟩ := C89_answer str!"v2.0.5" modelFormat modelFormat_formats (by decide +kernel) [⟨orders, str!"a/shop", true⟩, ⟨orders, str!"b/shop", false⟩]
    (by
      intro f hf _
      simp only [List.mem_cons, List.not_mem_nil, or_false] at hf
      rcases hf with rfl | rfl <;> exact ⟨orders_wf, by decide +kernel⟩)
  exact ⟨fs, h1, h2⟩

example : Answers currentVersion modelFormat [⟨orders, str!"a/shop", true⟩] .error :=
  (C89_shipped_false modelFormat modelFormat_package [⟨orders, str!"a/shop", true⟩]
    (by
      intro f hf _
      simp only [List.mem_cons, List.not_mem_nil, or_false] at hf
      subst hf
      exact ⟨orders_wf, by decide +kernel⟩) ⟨_, List.mem_cons_self .., rfl⟩).1

end Props
