import Verif.Text.GoRun

/-!
# More call stack does not change a result

A run that does not exceed its call stack goes the same way with a larger one.
-/

namespace GoRun

open Text GoAst Gen Spec

variable {lib : Lib}

/-- `m` exceeds its call stack or does what `m'` does. -/
def Below {α : Type} (m m' : M α) : Prop := ∀ s, m s = .fail .overflow ∨ m s = m' s

theorem Below.refl {α : Type} (m : M α) : Below m m := fun _ => .inr rfl

theorem Below.trans {α : Type} {a b c : M α} (h : Below a b) (h' : Below b c) : Below a c := fun s => by
  rcases h s with h | h
  · exact .inl h
  · rw [h]; exact h' s

theorem Below.bind {α β : Type} {m m' : M α} {f f' : α → M β} (h : Below m m') (hf : ∀ a, Below (f a) (f' a)) : Below (m >>= f) (m' >>= f') := by
  intro s
  show M.bind m f s = _ ∨ M.bind m f s = M.bind m' f' s
  unfold M.bind
  rcases h s with h | h
  · rw [h]; exact .inl rfl
  · rw [← h]
    cases m s with
    | ok a s' => exact hf a s'
    | fail e => exact .inr rfl

theorem Below.one {m m' : M (List TV)} (h : Below m m') : Below (one m) (one m') := h.bind fun _ => .refl _

theorem Below.isTrue {m m' : M (List TV)} (h : Below m m') : Below (isTrue m) (isTrue m') := h.one.bind fun _ => .refl _

theorem Below.inBlock {α : Type} {m m' : M α} (h : Below m m') : Below (inBlock m) (inBlock m') := by
  intro s
  unfold GoRun.inBlock
  rcases h s with h | h
  · rw [h]; exact .inl rfl
  · rw [h]; exact .inr rfl

theorem Below.loop {c c' : M Bool} {b b' : M Flow} {p p' : M Unit} (hc : Below c c') (hb : Below b b') (hp : Below p p') (n : Nat) :
    Below (loop c b p n) (loop c' b' p' n) := by
  induction n with
  | zero => exact .refl _
  | succ n ih =>
    unfold GoRun.loop
    refine hc.bind fun x => ?_
    split
    · refine hb.bind fun y => ?_
      split
      · exact hp.bind fun _ => ih
      · exact .refl _
    · exact .refl _

theorem Below.rounds {b b' : M Flow} (hb : Below b b') (l : List (List (Ident × TV))) : Below (rounds b l) (rounds b' l) := by
  induction l with
  | nil => exact .refl _
  | cons v l ih =>
    unfold GoRun.rounds
    refine (Below.inBlock (Below.bind (.refl _) fun _ => hb)).bind fun x => ?_
    split
    · exact ih
    · exact .refl _

/-- The same for functions. -/
def Callee.Below (c c' : Callee) : Prop := ∀ fn r as, GoRun.Below (c fn r as) (c' fn r as)

variable {P : List Decl} {rd : GoGen.Codec} {c c' : Callee}

theorem apply_below (h : c.Below c') (t : Target) (as : List TV) : Below (apply P rd c t as) (apply P rd c' t as) := by
  cases t with
  | name f =>
    simp only [apply]
    split
    · exact Below.bind (.refl _) fun _ => (h _ _ _).bind fun _ => .refl _
    · exact .refl _
  | lib f => exact .refl _
  | method r m =>
    simp only [apply]
    split
    · exact .refl _
    · exact .refl _
    · refine Below.bind (.refl _) fun t => Below.bind (.refl _) fun fn => ?_
      split
      · exact Below.bind (.refl _) fun _ => (h _ _ _).bind fun _ => .refl _
      · exact .refl _
    · exact .refl _

theorem fill_below (h : c.Below c') : ∀ (els : List (Ident × Ident)) (r : TV), Below (fill P rd c els r) (fill P rd c' els r)
  | [], _ => .refl _
  | (n, g) :: els, r => by
    unfold fill
    refine Below.bind (.refl _) fun v => ?_
    split
    · exact .refl _
    · exact (Below.one ((apply_below h _ _).bind fun _ => .refl _)).bind fun v => Below.bind (.refl _) fun w => fill_below h els w

mutual
theorem eval_below (h : c.Below c') : ∀ e, Below (eval P rd c e) (eval P rd c' e)
  | .var _ => by unfold eval; exact .refl _
  | .num _ => by unfold eval; exact .refl _
  | .str _ => by unfold eval; exact .refl _
  | .sel e n => by
    unfold eval
    intro s
    simp only []
    split
    · exact .inr rfl
    · exact (eval_below h e).one.bind (fun _ => .refl _) s
  | .index e i => by
    unfold eval
    exact (eval_below h e).one.bind fun _ => (eval_below h i).one.bind fun _ => .refl _
  | .call0 f => by
    unfold eval
    exact (target_below h f).bind fun t => (apply_below h t _).bind fun r => (storeReceiver_below h f r.2).bind fun _ => .refl _
  | .call1 f a => by
    unfold eval
    exact (target_below h f).bind fun t => (eval_below h a).one.bind fun _ => (apply_below h t _).bind fun r => (storeReceiver_below h f r.2).bind fun _ => .refl _
  | .call2 f a b => by
    unfold eval
    exact (target_below h f).bind fun t => (eval_below h a).one.bind fun _ => (eval_below h b).one.bind fun _ =>
      (apply_below h t _).bind fun r => (storeReceiver_below h f r.2).bind fun _ => .refl _
  | .call3 f a b d => by
    unfold eval
    exact (target_below h f).bind fun t => (eval_below h a).one.bind fun _ => (eval_below h b).one.bind fun _ => (eval_below h d).one.bind fun _ =>
      (apply_below h t _).bind fun r => (storeReceiver_below h f r.2).bind fun _ => .refl _
  | .make t n => by unfold eval; exact (eval_below h n).one.bind fun _ => .refl _
  | .new t els => by unfold eval; exact Below.bind (.refl _) fun _ => Below.bind (.refl _) fun _ => (fill_below h els _).bind fun _ => .refl _
  | .eq a b => by unfold eval; exact (eval_below h a).one.bind fun _ => (eval_below h b).one.bind fun _ => .refl _
  | .ne a b => by unfold eval; exact (eval_below h a).one.bind fun _ => (eval_below h b).one.bind fun _ => .refl _
  | .lt a b => by unfold eval; exact (eval_below h a).one.bind fun _ => (eval_below h b).one.bind fun _ => .refl _
  | .not a => by unfold eval; exact (eval_below h a).one.bind fun _ => .refl _
theorem target_below (h : c.Below c') : ∀ e, Below (target P rd c e) (target P rd c' e)
  | .sel e m => by
    unfold target
    intro s
    simp only []
    split
    · exact .inr rfl
    · exact (eval_below h e).one.bind (fun _ => .refl _) s
  | .var _ => by unfold target; exact .refl _
  | .num _ => by unfold target; exact .refl _
  | .str _ => by unfold target; exact .refl _
  | .index _ _ => by unfold target; exact .refl _
  | .call0 _ => by unfold target; exact .refl _
  | .call1 _ _ => by unfold target; exact .refl _
  | .call2 _ _ _ => by unfold target; exact .refl _
  | .call3 _ _ _ _ => by unfold target; exact .refl _
  | .make _ _ => by unfold target; exact .refl _
  | .new _ _ => by unfold target; exact .refl _
  | .eq _ _ => by unfold target; exact .refl _
  | .ne _ _ => by unfold target; exact .refl _
  | .lt _ _ => by unfold target; exact .refl _
  | .not _ => by unfold target; exact .refl _
theorem storeReceiver_below (h : c.Below c') : ∀ f (v : Option TV), Below (storeReceiver P rd c f v) (storeReceiver P rd c' f v)
  | f, none => by unfold storeReceiver; exact .refl _
  | .sel e _, some v => by unfold storeReceiver; exact store_below h e v
  | .var _, some _ => by unfold storeReceiver; exact .refl _
  | .num _, some _ => by unfold storeReceiver; exact .refl _
  | .str _, some _ => by unfold storeReceiver; exact .refl _
  | .index _ _, some _ => by unfold storeReceiver; exact .refl _
  | .call0 _, some _ => by unfold storeReceiver; exact .refl _
  | .call1 _ _, some _ => by unfold storeReceiver; exact .refl _
  | .call2 _ _ _, some _ => by unfold storeReceiver; exact .refl _
  | .call3 _ _ _ _, some _ => by unfold storeReceiver; exact .refl _
  | .make _ _, some _ => by unfold storeReceiver; exact .refl _
  | .new _ _, some _ => by unfold storeReceiver; exact .refl _
  | .eq _ _, some _ => by unfold storeReceiver; exact .refl _
  | .ne _ _, some _ => by unfold storeReceiver; exact .refl _
  | .lt _ _, some _ => by unfold storeReceiver; exact .refl _
  | .not _, some _ => by unfold storeReceiver; exact .refl _
theorem store_below (h : c.Below c') : ∀ l (v : TV), Below (store P rd c l v) (store P rd c' l v)
  | .sel e n, v => by
    unfold store
    exact (eval_below h e).one.bind fun r => Below.bind (.refl _) fun w => store_below h e w
  | .index e i, v => by
    unfold store
    exact (eval_below h e).one.bind fun r => (eval_below h i).one.bind fun i => Below.bind (.refl _) fun w => store_below h e w
  | .var _, _ => by unfold store; exact .refl _
  | .num _, _ => by unfold store; exact .refl _
  | .str _, _ => by unfold store; exact .refl _
  | .call0 _, _ => by unfold store; exact .refl _
  | .call1 _ _, _ => by unfold store; exact .refl _
  | .call2 _ _ _, _ => by unfold store; exact .refl _
  | .call3 _ _ _ _, _ => by unfold store; exact .refl _
  | .make _ _, _ => by unfold store; exact .refl _
  | .new _ _, _ => by unfold store; exact .refl _
  | .eq _ _, _ => by unfold store; exact .refl _
  | .ne _ _, _ => by unfold store; exact .refl _
  | .lt _ _, _ => by unfold store; exact .refl _
  | .not _, _ => by unfold store; exact .refl _
end

theorem exec_below (h : c.Below c') (st : Stmt) : Below (exec P rd c st) (exec P rd c' st) := by
  induction st with
  | skip => exact .refl _
  | seq s rest ih1 ih2 =>
    unfold exec
    refine ih1.bind fun x => ?_
    split
    · exact ih2
    · exact .refl _
  | expr e => unfold exec; exact (eval_below h e).bind fun _ => .refl _
  | assign l e => unfold exec; exact (eval_below h e).one.bind fun v => (store_below h l v).bind fun _ => .refl _
  | assign2 l m e =>
    unfold exec
    refine (eval_below h e).bind fun v => ?_
    split
    · exact (store_below h l _).bind fun _ => (store_below h m _).bind fun _ => .refl _
    · exact .refl _
  | define n e => unfold exec; exact (eval_below h e).one.bind fun _ => .refl _
  | defer e =>
    unfold exec
    split
    · rename_i d m
      exact (eval_below h d).one.bind fun _ => .refl _
    · exact .refl _
  | define2 l m e => unfold exec; exact (eval_below h e).bind fun _ => .refl _
  | var => exact .refl _
  | ret => exact .refl _
  | ret1 e => unfold exec; exact (eval_below h e).bind fun _ => .refl _
  | if1 e t ih =>
    unfold exec
    refine (eval_below h e).isTrue.bind fun b => ?_
    split
    · exact ih.inBlock
    · exact .refl _
  | ite e t f _ ih1 ih2 =>
    unfold exec
    refine (eval_below h e).isTrue.bind fun b => ?_
    split
    · exact ih1.inBlock
    · exact ih2.inBlock
  | for3 i e c b ih =>
    unfold exec
    exact Below.inBlock ((eval_below h e).one.bind fun v => Below.bind (.refl _) fun _ => (eval_below h c).isTrue.loop ih.inBlock (.refl _) _)
  | range k v e b ih =>
    unfold exec
    exact (eval_below h e).one.bind fun v => Below.bind (.refl _) fun l => ih.rounds l

theorem runFn_below (P : List Decl) (rd : GoGen.Codec) (d : Nat) : (runFn P rd d).Below (runFn P rd (d + 1)) := by
  induction d with
  | zero => exact fun _ _ _ _ => .inl rfl
  | succ d ih =>
    intro fn r as s
    simp only [runFn]
    split
    · exact .inr rfl
    · rcases exec_below ih fn.body _ with h | h
      · rw [h]; exact .inl rfl
      · rw [h]; exact .inr rfl

theorem runFn_mono (P : List Decl) (rd : GoGen.Codec) {d d' : Nat} (h : d ≤ d') : (runFn P rd d).Below (runFn P rd d') := by
  induction h with
  | refl => exact fun _ _ _ => .refl _
  | step _ ih => exact fun fn r as => (ih fn r as).trans (runFn_below P rd _ fn r as)

/-- A call that does not exceed its call stack has the same outcome with a larger one. -/
theorem callMethod_mono (P : List Decl) (rd : GoGen.Codec) {d d' : Nat} (h : d ≤ d') (t m : Ident) (r : Value) (as : List Value) (inp : Bytes) :
    callMethod P rd d t m r as inp = .fault .overflow ∨ callMethod P rd d t m r as inp = callMethod P rd d' t m r as inp := by
  unfold callMethod
  split
  · exact .inr rfl
  · rcases runFn_mono P rd h _ _ _ _ with h | h
    · rw [h]; exact .inl rfl
    · rw [h]; exact .inr rfl

end GoRun
