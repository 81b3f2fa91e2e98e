import Verif.Text.PluginOthers
import Verif.Props.Plugin
import Verif.Props.RustText
import Verif.Props.TsScope

/-!
# What the Rust and the TypeScript plugin answer

`RustAnswers privacy W version rustfmt req fs`: with this version text the Rust plugin answers the request `req` with the files `fs`;
`rustfmt` stands for the program of this name, which is run on every text.  `TsAnswers version [] req fs`: the same for TypeScript.
-/

namespace Props

open Utils Text Plugin
open GoText (FileD)
open Package.Rust (World DependencyAnalysis)

/-- What is needed of `rustfmt`: it accepts a text that the model reads as a program, and keeps the program; and it rejects a text made of
the tokens of a program that is not read as one, and a text that begins with a comma. -/
structure Rustfmt (rustfmt : Bytes → Option Bytes) : Prop where
  keeps : ∀ t P, RustParse.Reads t P → ∃ u, rustfmt t = some u ∧ RustParse.Reads u P
  rejects : ∀ t P, RustLex.lex (ofBytes t) = some (RustAst.file P) → (∀ Q, ¬ RustParse.Reads t Q) → rustfmt t = none
  comma : ∀ t ts, RustLex.lex (ofBytes t) = some (.op go!"," :: ts) → rustfmt t = none

/-- **C99 (Rust: answer).** Let the version text have no newline.  The Rust plugin answers a request exactly if for every file asked for the
search for its imports comes to an end and none of its names is a keyword; otherwise there is no answer, for the other files neither.
The answer has one file per file asked for, in the same order, named after it, whose content is the program of that file. -/
theorem C99_rust_answer (privacy : Bytes) (W : World) (version : Bytes) (rustfmt : Bytes → Option Bytes) (hf : Rustfmt rustfmt)
    (hv : ∀ c ∈ version, c.toNat ≠ 0x0A) (req : List ReqFile)
    (h : ∀ f ∈ req, f.wanted = true → RustText.FileWf f.desc ∧ ∀ c ∈ f.desc.path, c.toNat ≠ 0x0A) :
    ((∃ fs, RustAnswers privacy W version rustfmt req fs) ↔
      ∀ f ∈ req, f.wanted = true → RustText.NoKeywords f.desc ∧ ∃ depth d, DependencyAnalysis W depth f.desc.erase = some d) ∧
    ∀ fs, RustAnswers privacy W version rustfmt req fs →
      fs.map (·.1) = (wantedFiles req).map (fun f => f.stem ++ str!"_polyglot.rs") ∧
      ∀ (i : Nat) (f : ReqFile) (p : Bytes × Bytes), (wantedFiles req)[i]? = some f → fs[i]? = some p →
        ∃ depth d, DependencyAnalysis W depth f.desc.erase = some d ∧ RustParse.Reads p.2 (RustText.program privacy d f.desc) := by
  induction req with
  | nil =>
    refine ⟨⟨fun _ f hf => by simp at hf, fun _ => ⟨[], .done⟩⟩, fun fs hfs => ?_⟩
    cases hfs
    exact ⟨rfl, fun i f p h => by simp [wantedFiles] at h⟩
  | cons f req ih =>
    obtain ⟨ih1, ih2⟩ := ih fun g hg => h g (List.mem_cons_of_mem _ hg)
    have hone : f.wanted = true → ∀ t u, RustText.Generates privacy W version f.desc t → rustfmt t = some u →
        RustText.NoKeywords f.desc ∧ ∃ depth d, DependencyAnalysis W depth f.desc.erase = some d ∧ RustParse.Reads u (RustText.program privacy d f.desc) := by
      intro hw t u ht hu
      obtain ⟨hwf, hp⟩ := h f (List.mem_cons_self ..) hw
      obtain ⟨depth, d, hd, hread⟩ := C94_reads privacy W version f.desc hwf hv hp t ht
      have hk : RustText.NoKeywords f.desc := by
        refine Classical.byContradiction fun hk => ?_
        obtain ⟨t', ht', _, hl⟩ := (C94_tokens privacy W version f.desc hwf hv hp).1 depth d hd
        rw [ht'.unique ht] at hl
        rw [hf.rejects t _ hl fun Q hQ => hk ((hread Q).mp hQ).1] at hu
        cases hu
      obtain ⟨u', hu', hr'⟩ := hf.keeps t _ ((hread _).mpr ⟨hk, rfl⟩)
      rw [hu] at hu'
      cases hu'
      exact ⟨hk, depth, d, hd, hr'⟩
    refine ⟨⟨?_, ?_⟩, ?_⟩
    · rintro ⟨fs, hfs⟩ g hg hgw
      cases hfs with
      | skip hw hrest =>
        rcases List.mem_cons.mp hg with rfl | hg
        · rw [hw] at hgw; cases hgw
        · exact ih1.mp ⟨_, hrest⟩ g hg hgw
      | file hw ht hu hrest =>
        rcases List.mem_cons.mp hg with rfl | hg
        · obtain ⟨hk, depth, d, hd, _⟩ := hone hw _ _ ht hu
          exact ⟨hk, depth, d, hd⟩
        · exact ih1.mp ⟨_, hrest⟩ g hg hgw
    · intro hall
      obtain ⟨fs, hfs⟩ := ih1.mpr fun g hg => hall g (List.mem_cons_of_mem _ hg)
      cases hw : f.wanted with
      | false => exact ⟨fs, .skip hw hfs⟩
      | true =>
        obtain ⟨hwf, hp⟩ := h f (List.mem_cons_self ..) hw
        obtain ⟨hk, depth, d, hd⟩ := hall f (List.mem_cons_self ..) hw
        obtain ⟨t, ht, _, _⟩ := (C94_tokens privacy W version f.desc hwf hv hp).1 depth d hd
        obtain ⟨_, _, _, hread⟩ := C94_reads privacy W version f.desc hwf hv hp t ht
        obtain ⟨u, hu, _⟩ := hf.keeps t _ ((hread _).mpr ⟨hk, rfl⟩)
        exact ⟨_, .file hw ht hu hfs⟩
    · intro fs hfs
      cases hfs with
      | skip hw hrest =>
        obtain ⟨h2, h3⟩ := ih2 _ hrest
        exact ⟨by simpa [wantedFiles, hw] using h2, by simpa [wantedFiles, hw] using h3⟩
      | file hw ht hu hrest =>
        obtain ⟨h2, h3⟩ := ih2 _ hrest
        refine ⟨?_, ?_⟩
        · simp only [wantedFiles, hw, List.filter_cons_of_pos, List.map_cons, List.cons.injEq]
          exact ⟨rfl, h2⟩
        · simp only [wantedFiles, hw, List.filter_cons_of_pos]
          intro i g p hg hp'
          cases i with
          | zero =>
            simp only [List.getElem?_cons_zero, Option.some.injEq] at hg hp'
            subst hg hp'
            obtain ⟨_, depth, d, hd, hr⟩ := hone hw _ _ ht hu
            exact ⟨depth, d, hd, hr⟩
          | succ i => exact h3 i g p (by simpa [wantedFiles] using hg) (by simpa using hp')

/-- **C99 (Rust: independence).** The answer is determined by the request, and what the Rust plugin answers for a file does not depend on the
rest of the request, if there is an answer. -/
theorem C99_rust_independent (privacy : Bytes) (W : World) (version : Bytes) (rustfmt : Bytes → Option Bytes) (req req' : List ReqFile) (fs fs' : List (Bytes × Bytes))
    (h : RustAnswers privacy W version rustfmt req fs) (h' : RustAnswers privacy W version rustfmt req' fs') :
    (req = req' → fs = fs') ∧
    ∀ f ∈ req, f ∈ req' → f.wanted = true → ∃ content, (f.stem ++ str!"_polyglot.rs", content) ∈ fs ∧ (f.stem ++ str!"_polyglot.rs", content) ∈ fs' := by
  have key : ∀ (req : List ReqFile) (fs : List (Bytes × Bytes)), RustAnswers privacy W version rustfmt req fs → ∀ f ∈ req, f.wanted = true →
      ∃ t u, RustText.Generates privacy W version f.desc t ∧ rustfmt t = some u ∧ (f.stem ++ str!"_polyglot.rs", u) ∈ fs := by
    intro req fs hr
    induction hr with
    | done => intro f hf; cases hf
    | skip hg _ ih =>
      intro f hf hw
      rcases List.mem_cons.mp hf with rfl | hf
      · rw [hw] at hg; cases hg
      · exact ih f hf hw
    | file hg ht hu _ ih =>
      intro f hf hw
      rcases List.mem_cons.mp hf with rfl | hf
      · exact ⟨_, _, ht, hu, List.mem_cons_self ..⟩
      · obtain ⟨t, u, h1, h2, h3⟩ := ih f hf hw
        exact ⟨t, u, h1, h2, List.mem_cons_of_mem _ h3⟩
  refine ⟨fun he => by subst he; exact h.unique h', fun f hf hf' hw => ?_⟩
  obtain ⟨t, u, h1, h2, h3⟩ := key _ _ h f hf hw
  obtain ⟨t', u', h1', h2', h3'⟩ := key _ _ h' f hf' hw
  rw [h1.unique h1', h2'] at h2
  cases h2
  exact ⟨u, h3, h3'⟩

/-- **C99 (Rust: refuted for the shipped version text).** The version text that ships ends with a newline.  With it the Rust plugin answers no
request for a file at all. -/
theorem C99_rust_shipped_false (lib : Lib) (privacy : Bytes) (W : World) (rustfmt : Bytes → Option Bytes) (hf : Rustfmt rustfmt) (req : List ReqFile)
    (h : ∀ f ∈ req, f.wanted = true → RustText.FileWf f.desc ∧ ∀ c ∈ f.desc.path, c.toNat ≠ 0x0A) (hne : ∃ f ∈ req, f.wanted = true) (fs : List (Bytes × Bytes)) :
    ¬ RustAnswers privacy W (@GoText.currentVersion lib) rustfmt req fs := by
  intro hr
  induction hr with
  | done => obtain ⟨f, hf, _⟩ := hne; cases hf
  | skip hw _ ih =>
    refine ih (fun g hg => h g (List.mem_cons_of_mem _ hg)) ?_
    obtain ⟨g, hg, hgw⟩ := hne
    rcases List.mem_cons.mp hg with rfl | hg
    · rw [hw] at hgw; cases hgw
    · exact ⟨g, hg, hgw⟩
  | file hw ht hu _ _ =>
    obtain ⟨hwf, hp⟩ := h _ (List.mem_cons_self ..) hw
    obtain ⟨_, _, _, hl, _⟩ := C94_shipped lib privacy W _ hwf hp _ ht
    rw [hf.comma _ _ hl] at hu
    cases hu

/-- **C99 (TypeScript: answer).** Let the version text have no newline.  The TypeScript plugin answers every request whose files are
well-formed with one file per file asked for, in the same order, named after it, whose content has the tokens of the program of that file,
with the imports that C90 says.  The answer is determined by the request. -/
theorem C99_ts_answer (version : Bytes) (hv : ∀ c ∈ version, c.toNat ≠ 0x0A) (req : List ReqFile)
    (h : ∀ f ∈ req, f.wanted = true → RustText.FileWf f.desc ∧ ∀ c ∈ f.desc.path, c.toNat ≠ 0x0A) :
    ∃ fs, TsAnswers version [] req fs ∧ (∀ r, TsAnswers version [] req r → r = fs) ∧
      fs.map (·.1) = (wantedFiles req).map (fun f => f.stem ++ str!".polyglot.ts") ∧
      ∀ (i : Nat) (f : ReqFile) (p : Bytes × Bytes), (wantedFiles req)[i]? = some f → fs[i]? = some p →
        ∃ names, TsText.Imports (((wantedFiles req).take i).map (·.desc)) f.desc names ∧
          TsLex.lex (ofBytes p.2) = some (TsAst.file (TsText.program (names.map TsText.nameBytes) f.desc)) := by
  suffices hs : ∀ before : List FileD, (∀ g ∈ before, RustText.FileWf g) → ∃ fs, TsAnswers version before req fs ∧
      fs.map (·.1) = (wantedFiles req).map (fun f => f.stem ++ str!".polyglot.ts") ∧
      ∀ (i : Nat) (f : ReqFile) (p : Bytes × Bytes), (wantedFiles req)[i]? = some f → fs[i]? = some p →
        ∃ names, TsText.Imports (before ++ ((wantedFiles req).take i).map (·.desc)) f.desc names ∧
          TsLex.lex (ofBytes p.2) = some (TsAst.file (TsText.program (names.map TsText.nameBytes) f.desc)) by
    obtain ⟨fs, h1, h2, h3⟩ := hs [] (by simp)
    exact ⟨fs, h1, fun r hr => hr.unique h1, h2, h3⟩
  induction req with
  | nil => exact fun _ _ => ⟨[], .done, rfl, fun i f p h => by simp [wantedFiles] at h⟩
  | cons f req ih =>
    intro before hb
    have ih := ih fun g hg => h g (List.mem_cons_of_mem _ hg)
    cases hw : f.wanted with
    | false =>
      obtain ⟨fs, h1, h2, h3⟩ := ih before hb
      exact ⟨fs, .skip hw h1, by simpa [wantedFiles, hw] using h2, by simpa [wantedFiles, hw] using h3⟩
    | true =>
      obtain ⟨hwf, hp⟩ := h f (List.mem_cons_self ..) hw
      obtain ⟨fs, h1, h2, h3⟩ := ih (before ++ [f.desc]) (by
        intro g hg
        rcases List.mem_append.mp hg with hg | hg
        · exact hb g hg
        · rw [List.mem_singleton] at hg; subst hg; exact hwf)
      obtain ⟨names, t, hn, ht, _, hl⟩ := C96_tokens before version f.desc hb hwf hv hp
      refine ⟨_, .file hw ht h1, ?_, ?_⟩
      · simp only [wantedFiles, hw, List.filter_cons_of_pos, List.map_cons, List.cons.injEq]
        exact ⟨rfl, h2⟩
      · simp only [wantedFiles, hw, List.filter_cons_of_pos]
        intro i g p hg hp'
        cases i with
        | zero =>
          simp only [List.getElem?_cons_zero, Option.some.injEq] at hg hp'
          subst hg hp'
          exact ⟨names, by simpa using hn, hl⟩
        | succ i =>
          obtain ⟨names, h4, h5⟩ := h3 i g p (by simpa [wantedFiles] using hg) (by simpa using hp')
          exact ⟨names, by simpa [wantedFiles] using h4, h5⟩

/-- **C99 (TypeScript: the shipped version text).** With the version text that ships there is an answer too, but each file of it begins with a
comma, so it is no TypeScript. -/
theorem C99_ts_shipped_false (lib : Lib) (req : List ReqFile)
    (h : ∀ f ∈ req, f.wanted = true → RustText.FileWf f.desc ∧ ∀ c ∈ f.desc.path, c.toNat ≠ 0x0A) :
    ∃ fs, TsAnswers (@GoText.currentVersion lib) [] req fs ∧ (∀ r, TsAnswers (@GoText.currentVersion lib) [] req r → r = fs) ∧
      fs.length = (wantedFiles req).length ∧
      ∀ p ∈ fs, ∃ ts, TsLex.lex (ofBytes p.2) = some (.op go!"," :: ts) := by
  have he : ∃ v, @GoText.currentVersion lib = v ++ [0x0A] ∧ ∀ c ∈ v, c.toNat ≠ 0x0A := by
    cases lib
    · exact ⟨str!"v1.3.0", by decide +kernel, by decide +kernel⟩
    · exact ⟨str!"v2.0.5", by decide +kernel, by decide +kernel⟩
  obtain ⟨v, he, hv⟩ := he
  suffices hs : ∀ before : List FileD, (∀ g ∈ before, RustText.FileWf g) → ∃ fs, TsAnswers (@GoText.currentVersion lib) before req fs ∧
      fs.length = (wantedFiles req).length ∧ ∀ p ∈ fs, ∃ ts, TsLex.lex (ofBytes p.2) = some (.op go!"," :: ts) by
    obtain ⟨fs, h1, h2, h3⟩ := hs [] (by simp)
    exact ⟨fs, h1, fun r hr => hr.unique h1, h2, h3⟩
  induction req with
  | nil => exact fun _ _ => ⟨[], .done, rfl, by simp⟩
  | cons f req ih =>
    intro before hb
    have ih := ih fun g hg => h g (List.mem_cons_of_mem _ hg)
    cases hw : f.wanted with
    | false =>
      obtain ⟨fs, h1, h2, h3⟩ := ih before hb
      exact ⟨fs, .skip hw h1, by simpa [wantedFiles, hw] using h2, h3⟩
    | true =>
      obtain ⟨hwf, hp⟩ := h f (List.mem_cons_self ..) hw
      obtain ⟨fs, h1, h2, h3⟩ := ih (before ++ [f.desc]) (by
        intro g hg
        rcases List.mem_append.mp hg with hg | hg
        · exact hb g hg
        · rw [List.mem_singleton] at hg; subst hg; exact hwf)
      obtain ⟨names, hn⟩ := TsText.imports_exist hb hwf
      obtain ⟨u, hu, _⟩ := TsText.shows_file_newline v (names.map TsText.nameBytes) f.desc _ (Nat.le_refl _) (TsText.file_ok hwf) hn.words hv hp
      rw [← he] at hu
      have hg := TsText.generates_of hn hu
      obtain ⟨_, _, hl⟩ := C96_shipped lib before f.desc hwf hp u hg
      refine ⟨_, .file hw hg h1, by simp [wantedFiles, hw, h2], ?_⟩
      intro p hp'
      rcases List.mem_cons.mp hp' with rfl | hp'
      · exact ⟨_, hl⟩
      · exact h3 p hp'

/-! ## Requests that meet the hypotheses -/

/-- The model's reader of Rust in place of `rustfmt`: it accepts what it reads, and changes nothing. -/
def modelRustfmt (t : Bytes) : Option Bytes := if ((RustLex.lex (ofBytes t)).bind RustParse.parse).isSome then some t else none

theorem modelRustfmt_ok : Rustfmt modelRustfmt where
  keeps t P h := ⟨t, by unfold modelRustfmt; rw [h]; rfl, h⟩
  rejects t P _ h := by
    unfold modelRustfmt
    cases hp : (RustLex.lex (ofBytes t)).bind RustParse.parse with
    | none => rfl
    | some Q => exact absurd hp (h Q)
  comma t ts h := by
    unfold modelRustfmt
    rw [h, Option.bind_some]
    rfl

/-- One file asked for, and one that it imports. -/
def twoFiles : List ReqFile := [⟨orders, str!"a/shop", true⟩, ⟨orders, str!"b/shop", false⟩]

theorem twoFiles_wf : ∀ f ∈ twoFiles, f.wanted = true → RustText.FileWf f.desc ∧ ∀ c ∈ f.desc.path, c.toNat ≠ 0x0A := by
  intro f hf _
  simp only [twoFiles, List.mem_cons, List.not_mem_nil, or_false] at hf
  rcases hf with rfl | rfl <;> exact ⟨.of_go orders_wf, by decide +kernel⟩

example : ∃ fs, RustAnswers str!"public" ordersWorld str!"v1.3.0" modelRustfmt twoFiles fs ∧ fs.map (·.1) = [str!"a/shop_polyglot.rs"] := by
  obtain ⟨h1, h2⟩ := C99_rust_answer str!"public" ordersWorld str!"v1.3.0" modelRustfmt modelRustfmt_ok (by decide +kernel) twoFiles twoFiles_wf
  obtain ⟨fs, hfs⟩ := h1.mpr (by
    intro f hf _
    simp only [twoFiles, List.mem_cons, List.not_mem_nil, or_false] at hf
    rcases hf with rfl | rfl <;> exact ⟨orders_noKeywords, 5, _, orders_analysis⟩)
  exact ⟨fs, hfs, (h2 fs hfs).1⟩

theorem typeFile_wf : RustText.FileWf (oneMessage [⟨str!"type", .one false, .string, []⟩]) := by
  have hA : GoText.IsIdent str!"A" := isIdent_of (by decide)
  have ht : GoText.IsIdent str!"type" := isIdent_of (by decide)
  refine ⟨.inl rfl, by simp [oneMessage], ?_⟩
  intro m hm
  obtain rfl := List.mem_singleton.mp hm
  refine .mk hA ?_ (by simp) (by simp)
  intro f hf
  obtain rfl := List.mem_singleton.mp hf
  exact ⟨ht, by decide, by simp, by simp⟩

/-- A file with a field `type` next to it: no answer. -/
example (fs : List (Bytes × Bytes)) : ¬ RustAnswers str!"public" ordersWorld str!"v1.3.0" modelRustfmt
    (twoFiles ++ [⟨oneMessage [⟨str!"type", .one false, .string, []⟩], str!"c/t", true⟩]) fs := by
  intro h
  obtain ⟨h1, _⟩ := C99_rust_answer str!"public" ordersWorld str!"v1.3.0" modelRustfmt modelRustfmt_ok (by decide +kernel)
    (twoFiles ++ [⟨oneMessage [⟨str!"type", .one false, .string, []⟩], str!"c/t", true⟩]) (by
      intro f hf hw
      rcases List.mem_append.mp hf with hf | hf
      · exact twoFiles_wf f hf hw
      · rw [List.mem_singleton] at hf
        subst hf
        exact ⟨typeFile_wf, by decide +kernel⟩)
  have := (h1.mp ⟨fs, h⟩ ⟨oneMessage [⟨str!"type", .one false, .string, []⟩], str!"c/t", true⟩ (by simp) rfl).1.fields
  revert this
  decide +kernel

example (lib : Lib) (fs : List (Bytes × Bytes)) : ¬ RustAnswers str!"public" ordersWorld (@GoText.currentVersion lib) modelRustfmt twoFiles fs :=
  C99_rust_shipped_false lib _ _ _ modelRustfmt_ok _ twoFiles_wf ⟨_, List.mem_cons_self .., rfl⟩ fs

example : ∃ fs, TsAnswers str!"v1.3.0" [] twoFiles fs ∧ fs.map (·.1) = [str!"a/shop.polyglot.ts"] := by
  obtain ⟨fs, h1, _, h2, _⟩ := C99_ts_answer str!"v1.3.0" (by decide +kernel) twoFiles twoFiles_wf
  exact ⟨fs, h1, h2⟩

example (lib : Lib) : ∃ p ts, TsAnswers (@GoText.currentVersion lib) [] twoFiles [p] ∧ TsLex.lex (ofBytes p.2) = some (.op go!"," :: ts) := by
  obtain ⟨fs, h1, _, h2, h3⟩ := C99_ts_shipped_false lib twoFiles twoFiles_wf
  have hl : fs.length = 1 := h2
  obtain ⟨p, rfl⟩ := List.length_eq_one_iff.mp hl
  obtain ⟨ts, ht⟩ := h3 p (by simp)
  exact ⟨p, ts, h1, ht⟩

end Props
