import Verif.Text.TsProgram
import Verif.Text.GoLink

/-!
# What the generated TypeScript program declares

A reading of the syntax tree that does not know how it was made: the classes with the parameters of their constructors, their
accessors, the members that `encode` reads, the variables that `decode` declares and what it hands to the constructor.
-/

namespace TsAst

open Text hiding Tok

/-- The members of `this` that an expression uses, in order. -/
def Expr.members : Expr → List Ident
  | .field (.var v) n => if v = go!"this" then [n] else []
  | .field e _ => e.members
  | .call f args => f.members ++ args.members
  | .new _ _ args => args.members
  | .as e _ => e.members
  | .obj1 _ e => e.members
  | .obj2 _ e _ f => e.members ++ f.members
  | .acons a rest => a.members ++ rest.members
  | _ => []

/-- The members of `this` that a statement uses, in order. -/
def Stmt.members : Stmt → List Ident
  | .skip => []
  | .seq s rest => s.members ++ rest.members
  | .let1 _ e => e.members
  | .const1 _ e => e.members
  | .constT _ _ e => e.members
  | .assign l e _ => l.members ++ e.members
  | .expr e => e.members
  | .forEach e _ b => e.members ++ b.members
  | .for1 _ e b => e.members ++ b.members
  | .ret e => e.members

/-- The variables that a statement declares in the block it stands in. -/
def Stmt.lets : Stmt → List Ident
  | .seq s rest => s.lets ++ rest.lets
  | .let1 n _ => [n]
  | .const1 n _ => [n]
  | .constT n _ _ => [n]
  | _ => []

/-- The variables `x` of arguments `x.value`. -/
def Expr.values : Expr → List Ident
  | .acons (.field (.var v) n) rest => (if n = go!"value" then [v] else []) ++ rest.values
  | .acons _ rest => rest.values
  | _ => []

/-- The class and the arguments of the constructor in the object that a statement returns. -/
def Stmt.built : Stmt → List (Ident × List Ident)
  | .seq s rest => s.built ++ rest.built
  | .ret (.obj2 _ _ _ (.new n _ args)) => [(n, args.values)]
  | _ => []

/-- A class. -/
structure ClassInfo where
  name : Ident
  /-- parameters of the constructor -/
  params : List Ident
  getters : List Ident
  setters : List Ident
  /-- members that `encode` reads, in order -/
  encodes : List Ident
  /-- variables that `decode` declares, in order -/
  decodes : List Ident
  /-- what `decode` calls the constructor of, and with which variables -/
  builds : List (Ident × List Ident)
deriving DecidableEq, Repr

def Member.params : Member → List Ident
  | .ctor ps _ => ps.map (·.1)
  | _ => []

def Member.getters : Member → List Ident
  | .getter n _ _ => [n]
  | _ => []

def Member.setters : Member → List Ident
  | .setter n _ _ _ => [n]
  | _ => []

/-- The body of the method `name`. -/
def Member.body (static : Bool) (name : Ident) : Member → List Stmt
  | .method s n _ _ _ b => if s = static ∧ n = name then [b] else []
  | _ => []

def Item.classes : Item → List ClassInfo
  | .cls n ms => [{
      name := n
      params := ms.flatMap Member.params
      getters := ms.flatMap Member.getters
      setters := ms.flatMap Member.setters
      encodes := (ms.flatMap (Member.body false go!"encode")).flatMap Stmt.members
      decodes := (ms.flatMap (Member.body true go!"decode")).flatMap Stmt.lets
      builds := (ms.flatMap (Member.body true go!"decode")).flatMap Stmt.built }]
  | _ => []

/-- The enums with their values and numbers. -/
def Item.enums : Item → List (Ident × List (Ident × Frag))
  | .enum n vs => [(n, vs)]
  | _ => []

/-- The names that a file imports. -/
def Item.imports : Item → List Ident
  | .import1 ns _ => ns
  | _ => []

end TsAst

namespace TsText

open Utils Text TsAst
open Gen (PKind)
open GoText (FieldD MsgD FileD decimal)
open Package (EnumD qualify)

/-! ## What the classes should be -/

/-- The members that `encode` reads for a field: a scalar through its accessor, the others directly; repeated fields and maps twice, for
their length and for their elements. -/
def memberOf (f : FieldD) : List Ident :=
  match f.shape with
  | .one _ => if f.kind = .message then [go!"_" ++ lower f.name] else [lower f.name]
  | _ => [go!"_" ++ lower f.name, go!"_" ++ lower f.name]

/-- The variables that `decode` declares for a field. -/
def localsOf (f : FieldD) : List Ident :=
  match f.shape with
  | .one _ => if f.kind = .enum then [lower f.name ++ go!"U32", temp (lower f.name)] else [temp (lower f.name)]
  | _ => [lower f.name, temp (lower f.name)]

/-- The class of a message type: accessors for all fields in order; `encode` goes through scalars, repeated fields, messages and maps,
`decode` through repeated fields, messages and maps, scalars, and it calls the constructor, which takes the fields in order, with
scalars, repeated fields, messages and maps. -/
def classOf (t : Bytes × List FieldD) : ClassInfo :=
  let values := t.2.filter FieldD.isValue
  let slices := t.2.filter FieldD.isSlice
  let messages := t.2.filter FieldD.isMessage
  { name := camel t.1
    params := t.2.map fun f => lower f.name
    getters := t.2.map fun f => lower f.name
    setters := t.2.map fun f => lower f.name
    encodes := (values ++ slices ++ messages).flatMap memberOf
    decodes := go!"decoded" :: (slices ++ messages ++ values).flatMap localsOf
    builds := [(camel t.1, (values ++ slices ++ messages).map fun f => temp (lower f.name))] }

/-! ## They are -/

theorem members_block (ss : List Stmt) : (block ss).members = ss.flatMap Stmt.members := by
  induction ss with
  | nil => rfl
  | cons s ss ih => rw [List.flatMap_cons, ← ih]; rfl

theorem lets_block (ss : List Stmt) : (block ss).lets = ss.flatMap Stmt.lets := by
  induction ss with
  | nil => rfl
  | cons s ss ih => rw [List.flatMap_cons, ← ih]; rfl

theorem built_block (ss : List Stmt) : (block ss).built = ss.flatMap Stmt.built := by
  induction ss with
  | nil => rfl
  | cons s ss ih => rw [List.flatMap_cons, ← ih]; rfl

theorem flatMap_congr' {α β : Type} {l : List α} {f g : α → List β} (h : ∀ x ∈ l, f x = g x) : l.flatMap f = l.flatMap g := by
  induction l with
  | nil => rfl
  | cons x l ih => rw [List.flatMap_cons, List.flatMap_cons, h x (List.mem_cons_self ..), ih fun y hy => h y (List.mem_cons_of_mem _ hy)]

theorem flatMap_nil' {α β : Type} {l : List α} {f : α → List β} (h : ∀ x ∈ l, f x = []) : l.flatMap f = [] := by
  induction l with
  | nil => rfl
  | cons x l ih => rw [List.flatMap_cons, h x (List.mem_cons_self ..), ih fun y hy => h y (List.mem_cons_of_mem _ hy)]; rfl

theorem flatMap_single {α β : Type} (l : List α) (f : α → β) : (l.flatMap fun x => [f x]) = l.map f := by
  induction l with
  | nil => rfl
  | cons x l ih => rw [List.flatMap_cons, ih]; rfl

/-! `encode` -/

theorem members_value {f : FieldD} (h : f.isValue = true) : (encValue (lower f.name) f.kind).members = memberOf f := by
  obtain ⟨n, s, k, t⟩ := f
  cases s <;> simp only [FieldD.isValue, decide_eq_true_eq, Bool.false_eq_true] at h
  cases k <;> first | exact absurd rfl h | rfl

theorem members_slice {f : FieldD} (h : f.isSlice = true) : (encSlice (lower f.name) f.kind).flatMap Stmt.members = memberOf f := by
  obtain ⟨n, s, k, t⟩ := f
  cases s <;> simp only [FieldD.isSlice, Bool.false_eq_true] at h
  cases k <;> rfl

theorem members_message {f : FieldD} (h : f.isMessage = true) : (encMessageField f).flatMap Stmt.members = memberOf f := by
  obtain ⟨n, s, k, t⟩ := f
  cases s with
  | one r => simp only [FieldD.isMessage, decide_eq_true_eq] at h; subst h; rfl
  | many => cases h
  | map kk => cases kk <;> cases k <;> rfl

theorem encode_members (fs : List FieldD) :
    (([encodeMethod fs].flatMap (Member.body false go!"encode")).flatMap Stmt.members) =
      (fs.filter FieldD.isValue ++ fs.filter FieldD.isSlice ++ fs.filter FieldD.isMessage).flatMap memberOf := by
  have h : ([encodeMethod fs].flatMap (Member.body false go!"encode")).flatMap Stmt.members =
      (block ([.let1 go!"encoded" (.var go!"buf")] ++ (fs.filter FieldD.isValue).map (fun f => encValue (lower f.name) f.kind) ++
        (fs.filter FieldD.isSlice).flatMap (fun f => encSlice (lower f.name) f.kind) ++
        (fs.filter FieldD.isMessage).flatMap encMessageField ++ [.ret encoded])).members := by
    simp [encodeMethod, Member.body]
  rw [h, members_block]
  simp only [List.flatMap_append, List.flatMap_map, List.flatMap_assoc]
  rw [flatMap_congr' fun f hf => members_value (List.mem_filter.mp hf).2, flatMap_congr' fun f hf => members_slice (List.mem_filter.mp hf).2,
    flatMap_congr' fun f hf => members_message (List.mem_filter.mp hf).2]
  simp [Stmt.members, Expr.members, encoded]

/-! `decode` -/

theorem lets_value {f : FieldD} (h : f.isValue = true) : (decOther (lower f.name) f.kind (camel f.type)).flatMap Stmt.lets = localsOf f := by
  obtain ⟨n, s, k, t⟩ := f
  cases s <;> simp only [FieldD.isValue, decide_eq_true_eq, Bool.false_eq_true] at h
  cases k <;> first | exact absurd rfl h | rfl

theorem lets_slice {f : FieldD} (h : f.isSlice = true) : (decSlice (lower f.name) f.kind (camel f.type)).flatMap Stmt.lets = localsOf f := by
  obtain ⟨n, s, k, t⟩ := f
  cases s <;> simp only [FieldD.isSlice, Bool.false_eq_true] at h
  rfl

theorem lets_message {f : FieldD} (h : f.isMessage = true) : (decMessageField f).flatMap Stmt.lets = localsOf f := by
  obtain ⟨n, s, k, t⟩ := f
  cases s with
  | one r => simp only [FieldD.isMessage, decide_eq_true_eq] at h; subst h; rfl
  | many => cases h
  | map kk => rfl

theorem built_value {f : FieldD} : (decOther (lower f.name) f.kind (camel f.type)).flatMap Stmt.built = [] := by
  obtain ⟨n, s, k, t⟩ := f
  cases k <;> rfl

theorem built_slice {f : FieldD} : (decSlice (lower f.name) f.kind (camel f.type)).flatMap Stmt.built = [] := rfl

theorem built_message {f : FieldD} : (decMessageField f).flatMap Stmt.built = [] := by
  obtain ⟨n, s, k, t⟩ := f
  cases s <;> rfl

theorem values_args (l : List FieldD) : (argsOf (l.map argOf)).values = l.map fun f => temp (lower f.name) := by
  induction l with
  | nil => rfl
  | cons f l ih => rw [List.map_cons, List.map_cons, ← ih]; rfl

theorem decode_body (full : Bytes) (fs : List FieldD) : [decodeMethod full fs].flatMap (Member.body true go!"decode") =
    [block ([.let1 go!"decoded" (.var go!"buf")] ++
    (fs.filter FieldD.isSlice).flatMap (fun f => decSlice (lower f.name) f.kind (camel f.type)) ++
    (fs.filter FieldD.isMessage).flatMap decMessageField ++
    (fs.filter FieldD.isValue).flatMap (fun f => decOther (lower f.name) f.kind (camel f.type)) ++
    [.ret (.obj2 go!"buf" decoded go!"value" (.new (camel full) true (argsOf (
      (fs.filter FieldD.isValue).map argOf ++ (fs.filter FieldD.isSlice).map argOf ++ (fs.filter FieldD.isMessage).map argOf))))])] := by
  simp [decodeMethod, Member.body]

theorem decode_lets (full : Bytes) (fs : List FieldD) :
    ([decodeMethod full fs].flatMap (Member.body true go!"decode")).flatMap Stmt.lets =
      go!"decoded" :: (fs.filter FieldD.isSlice ++ fs.filter FieldD.isMessage ++ fs.filter FieldD.isValue).flatMap localsOf := by
  rw [decode_body, List.flatMap_cons, List.flatMap_nil, List.append_nil, lets_block]
  simp only [List.flatMap_append, List.flatMap_assoc]
  rw [flatMap_congr' fun f hf => lets_slice (List.mem_filter.mp hf).2, flatMap_congr' fun f hf => lets_message (List.mem_filter.mp hf).2,
    flatMap_congr' fun f hf => lets_value (List.mem_filter.mp hf).2]
  simp [Stmt.lets]

theorem decode_built (full : Bytes) (fs : List FieldD) :
    ([decodeMethod full fs].flatMap (Member.body true go!"decode")).flatMap Stmt.built =
      [(camel full, (fs.filter FieldD.isValue ++ fs.filter FieldD.isSlice ++ fs.filter FieldD.isMessage).map fun f => temp (lower f.name))] := by
  rw [decode_body, List.flatMap_cons, List.flatMap_nil, List.append_nil, built_block]
  simp only [List.flatMap_append, List.flatMap_assoc]
  rw [flatMap_nil' fun f _ => built_slice, flatMap_nil' fun f _ => built_message, flatMap_nil' fun f _ => built_value]
  rw [← List.map_append, ← List.map_append, ← values_args]
  simp [Stmt.built]

/-! Classes -/

theorem property_flat {β : Type} (p : Member → List β) (fs : List FieldD) (r : FieldD → List β) (h : ∀ f ∈ fs, (property (lower f.name) (fieldTy f)).flatMap p = r f) :
    (fs.flatMap fun f => property (lower f.name) (fieldTy f)).flatMap p = fs.flatMap r := by
  rw [List.flatMap_assoc]
  exact flatMap_congr' h

theorem classes_class (full : Bytes) (fs : List FieldD) : (classItem full fs).classes = [classOf (full, fs)] := by
  have hm : ∀ {β : Type} (p : Member → List β), [encodeMethod fs, decodeMethod full fs].flatMap p = [encodeMethod fs].flatMap p ++ [decodeMethod full fs].flatMap p := fun p => by simp
  have hp : ∀ {β : Type} (p : Member → List β) (r : FieldD → List β), (∀ f ∈ fs, (property (lower f.name) (fieldTy f)).flatMap p = r f) →
      (fs.flatMap fun f => property (lower f.name) (fieldTy f)).flatMap p = fs.flatMap r := fun p r h => property_flat p fs r h
  simp only [classItem, Item.classes, List.flatMap_append, hm, List.flatMap_append]
  rw [hp Member.params (fun _ => []) (fun f _ => rfl), hp Member.getters (fun f => [lower f.name]) (fun f _ => rfl),
    hp Member.setters (fun f => [lower f.name]) (fun f _ => rfl), hp (Member.body false go!"encode") (fun _ => []) (fun f _ => rfl),
    hp (Member.body true go!"decode") (fun _ => []) (fun f _ => rfl), encode_members, decode_lets, decode_built]
  have he : ∀ (l : List FieldD), (l.flatMap fun _ => ([] : List Ident)) = [] := fun l => flatMap_nil' fun _ _ => rfl
  have he' : ∀ (l : List FieldD), (l.flatMap fun _ => ([] : List Stmt)) = [] := fun l => flatMap_nil' fun _ _ => rfl
  have h1 : [decodeMethod full fs].flatMap (Member.body false go!"encode") = [] := by simp [decodeMethod, Member.body]
  have h2 : [encodeMethod fs].flatMap (Member.body true go!"decode") = [] := by simp [encodeMethod, Member.body]
  rw [h1, h2, he, he']
  simp [classOf, Member.params, Member.getters, Member.setters, Member.body, encodeMethod, decodeMethod, List.map_map, Function.comp_def, flatMap_single]

theorem classes_struct : ∀ m s, (structItems s m).flatMap Item.classes = (MsgD.types s m).map classOf := by
  intro m
  induction m using MsgD.rec (motive_2 := fun ms => ∀ s, (structItemsAll s ms).flatMap Item.classes = (GoText.typesAll s ms).map classOf) with
  | mk n e fs es ms ih =>
    intro s
    rw [structItems, MsgD.types]
    simp only [List.flatMap_append, List.map_append, ih, List.flatMap_cons, List.flatMap_nil, List.append_nil, classes_class, List.map_cons, List.map_nil]
  | nil => rename_i s; simp [structItemsAll, GoText.typesAll]
  | cons m ms ihm ih =>
    rename_i s
    obtain ⟨n, e, fs, es, mm⟩ := m
    rw [structItemsAll, GoText.typesAll]
    cases e with
    | true => simpa using ih s
    | false => simp [ihm s, ih s]

theorem enums_struct : ∀ m s, (structItems s m).flatMap Item.enums = [] := by
  intro m
  induction m using MsgD.rec (motive_2 := fun ms => ∀ s, (structItemsAll s ms).flatMap Item.enums = []) with
  | mk n e fs es ms ih =>
    intro s
    rw [structItems]
    simp only [List.flatMap_append, ih, List.flatMap_cons, List.flatMap_nil]
    rfl
  | nil => rename_i s; simp [structItemsAll]
  | cons m ms ihm ih =>
    rename_i s
    obtain ⟨n, e, fs, es, mm⟩ := m
    rw [structItemsAll]
    cases e with
    | true => simpa using ih s
    | false => simp [ihm s, ih s]

theorem classes_enums (s : Bytes) (es : List EnumD) : (es.map (enumItem s)).flatMap Item.classes = [] := by
  rw [List.flatMap_map]
  exact flatMap_nil' fun _ _ => rfl

/-- An enum: its values are numbered from 0 in the order of declaration. -/
def enumOf (p : Bytes × EnumD) : Ident × List (Ident × Frag) :=
  (camel (qualify p.1 p.2.name), p.2.values.mapIdx fun i v => (ofBytes v, ofBytes (decimal i)))

theorem enums_enums (s : Bytes) (es : List EnumD) : (es.map (enumItem s)).flatMap Item.enums = es.map fun e => enumOf (s, e) := by
  rw [List.flatMap_map]
  exact flatMap_single es fun e => enumOf (s, e)

theorem classes_program (deps : List Bytes) (f : FileD) : (program deps f).flatMap Item.classes = f.types.map classOf := by
  have hm : ∀ m s, (messageItems s m).flatMap Item.classes = (MsgD.types s m).map classOf := by
    intro m s
    obtain ⟨n, e, fs, es, ms⟩ := m
    rw [messageItems, List.flatMap_append, classes_enums, classes_struct]
    rfl
  rw [program]
  simp only [List.flatMap_append, List.flatMap_cons, classes_enums, List.flatMap_assoc, hm, FileD.types, List.map_flatMap]
  rfl

theorem enums_program (deps : List Bytes) (f : FileD) : (program deps f).flatMap Item.enums = f.enumTypes.map enumOf := by
  have hm : ∀ s m, (messageItems s m).flatMap Item.enums = (match m with | .mk n _ _ es _ => es.map fun e => (qualify s n, e)).map enumOf := by
    intro s m
    obtain ⟨n, e, fs, es, ms⟩ := m
    rw [messageItems, List.flatMap_append, enums_enums, enums_struct]
    simp
  rw [program]
  simp only [List.flatMap_append, List.flatMap_cons, enums_enums, List.flatMap_assoc, hm, FileD.enumTypes, List.map_append, List.map_flatMap, List.map_map]
  rfl

theorem imports_program (deps : List Bytes) (f : FileD) : (program deps f).flatMap Item.imports = deps.map ofBytes := by
  have he : ∀ (s : Bytes) (es : List EnumD), (es.map (enumItem s)).flatMap Item.imports = [] := by
    intro s es
    rw [List.flatMap_map]
    exact flatMap_nil' fun _ _ => rfl
  have hs : ∀ m s, (structItems s m).flatMap Item.imports = [] := by
    intro m
    induction m using MsgD.rec (motive_2 := fun ms => ∀ s, (structItemsAll s ms).flatMap Item.imports = []) with
    | mk n e fs es ms ih =>
      intro s
      rw [structItems]
      simp only [List.flatMap_append, ih, List.flatMap_cons, List.flatMap_nil]
      rfl
    | nil => rename_i s; simp [structItemsAll]
    | cons m ms ihm ih =>
      rename_i s
      obtain ⟨n, e, fs, es, mm⟩ := m
      rw [structItemsAll]
      cases e with
      | true => simpa using ih s
      | false => simp [ihm s, ih s]
  have hm : ∀ m s, (messageItems s m).flatMap Item.imports = [] := by
    intro m s
    obtain ⟨n, e, fs, es, ms⟩ := m
    rw [messageItems, List.flatMap_append, he, hs]
    rfl
  rw [program]
  simp only [List.flatMap_append, List.flatMap_cons, he, List.flatMap_assoc, hm]
  rw [flatMap_nil' fun _ _ => rfl]
  simp [Item.imports]

end TsText
