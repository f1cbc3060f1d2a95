import Verif.Props.WasmCheck
/-
C86 and C108 on slabs that are not well formed: whatever the bytes are, no error is returned where none is meant.
-/
namespace AOB.Wasm
variable {α β : Type}

/-- No error is returned: `r` has an answer, or panics, or has run out of fuel. -/
structure OnlyPanics (r : Res α) : Prop where
  out : ∀ e, r = .error e → e = .panic ∨ e = .diverge

theorem OnlyPanics.pure (a : α) : OnlyPanics (.ok a : Res α) := ⟨by intro e h; cases h⟩
theorem OnlyPanics.panic : OnlyPanics (.error .panic : Res α) := ⟨by intro e h; cases h; exact .inl rfl⟩
theorem OnlyPanics.diverge : OnlyPanics (.error .diverge : Res α) := ⟨by intro e h; cases h; exact .inr rfl⟩
theorem OnlyPanics.bind {r : Res α} {f : α → Res β} (h : OnlyPanics r) (hf : ∀ a, OnlyPanics (f a)) :
    OnlyPanics (r >>= f) := by
  refine ⟨fun e he => ?_⟩
  cases r with
  | ok a => exact (hf a).out e he
  | error e' => cases he; exact h.out _ rfl

theorem OnlyPanics.getNode (s : Slab) (k : Nat) : OnlyPanics (s.getNode k) := ⟨fun _ h => .inl (getNode_error h)⟩
theorem OnlyPanics.addU64 (a b : Nat) : OnlyPanics (addU64 a b) := by
  unfold AOB.addU64
  split_ifs
  · exact .pure _
  · exact .panic
theorem OnlyPanics.subU (a b : Nat) : OnlyPanics (subU a b) := by
  unfold AOB.subU
  split_ifs
  · exact .pure _
  · exact .panic
theorem OnlyPanics.walkDown (a b : Nat) : OnlyPanics (walkDown a b) := by
  unfold Wasm.walkDown
  split_ifs
  · exact .pure _
  · exact .panic
theorem OnlyPanics.writeNode! (s : Slab) (n : Node) (k : Nat) : OnlyPanics (s.writeNode! n k) := by
  unfold Slab.writeNode!
  split
  · exact .pure _
  · exact .panic
theorem OnlyPanics.remove (s : Slab) (k : Nat) : OnlyPanics (s.remove k) :=
  .bind (.getNode s k) fun _ => .bind (.writeNode! ..) fun _ => .bind (.addU64 ..) fun _ => .pure _

theorem OnlyPanics.removeLoop (s : Slab) (key : Nat) : ∀ fuel a b c, OnlyPanics (removeLoop s.getNode key fuel a b c)
  | 0, _, _, _ => .diverge
  | fuel + 1, a, b, c => .bind (.getNode s b) fun n => by
    cases n with
    | inner p k c0 c1 => exact .bind (.walkDown ..) fun _ => OnlyPanics.removeLoop s key fuel ..
    | leaf k cb q => dsimp only; split_ifs <;> exact .pure _
    | _ => exact .panic

theorem OnlyPanics.removeByKey (s : Slab) (key fuel : Nat) : OnlyPanics (s.removeByKey key fuel) := by
  unfold Slab.removeByKey
  split
  · exact .pure _
  refine .bind (.getNode ..) fun n => ?_
  cases n with
  | leaf k cb q =>
    dsimp only
    split_ifs
    · exact .bind (.remove ..) fun _ => .pure _
    · exact .panic
    · exact .pure _
  | inner p k c0 c1 =>
    refine .bind (.walkDown ..) fun b => .bind (.removeLoop ..) fun r => ?_
    match r with
    | none => exact .pure _
    | some (parent, child, critBit) =>
      refine .bind (.getNode ..) fun n => ?_
      cases n with
      | inner p k c0 c1 =>
        exact .bind (.remove ..) fun _ => .bind (.writeNode! ..) fun _ => .bind (.subU ..) fun _ =>
          .bind (.remove ..) fun _ => .pure _
      | _ => exact .panic
  | _ => exact .panic

theorem OnlyPanics.sequenceLoop (s : Slab) (depth : Nat) (inc : Bool) : ∀ fuel a b,
    OnlyPanics (sequenceLoop s.getNode depth inc fuel a b)
  | 0, _, _ => .diverge
  | fuel + 1, a, b => by
    unfold Wasm.sequenceLoop
    split
    · exact .pure _
    · match a with
      | [] => exact .pure _
      | k :: rest =>
        refine .bind (.getNode s k) fun n => ?_
        cases n <;> exact OnlyPanics.sequenceLoop ..

/-- C86: whatever the bytes of a slab are, the functions that remove and list orders return no error: without an answer they
panic. `insert` returns an error only if no freed slot is left. -/
theorem C86_only_panics (s : Slab) (e : Err) (key depth fuel : Nat) (flag : Bool) (n : Node) :
    (s.removeByKey key fuel = .error e → e = .panic ∨ e = .diverge) ∧
    (s.removeMinMax flag fuel = .error e → e = .panic ∨ e = .diverge) ∧
    (s.findNodeSequence depth flag fuel = .error e → e = .panic ∨ e = .diverge) ∧
    (s.remove key = .error e → e = .panic ∨ e = .diverge) ∧
    (s.insert n = .error e → e = .panic ∨ e = .io ∧ s.freeListLen = 0) := by
  refine ⟨(OnlyPanics.removeByKey s key fuel).out e, ?_, ?_, (OnlyPanics.remove s key).out e, ?_⟩
  · suffices h : OnlyPanics (s.removeMinMax flag fuel) from h.out e
    unfold Slab.removeMinMax
    split_ifs
    · exact .pure _
    · refine .bind ⟨fun e h => minMaxLoop_error h⟩ fun h => .bind (.getNode ..) fun n => ?_
      cases n with
      | leaf k cb q => exact .removeByKey ..
      | inner p k c0 c1 => exact .removeByKey ..
      | _ => exact .pure _
  · suffices h : OnlyPanics (s.findNodeSequence depth flag fuel) from h.out e
    unfold Slab.findNodeSequence
    split_ifs
    · exact .pure _
    · exact .sequenceLoop ..
  · intro h
    unfold Slab.insert at h
    split at h
    · rename_i h0
      by_cases hp : e = .panic
      · exact .inl hp
      refine .inr ⟨?_, h0⟩
      cases hc : s.capacity with
      | error e' =>
        rw [hc] at h; cases h
        unfold Slab.capacity at hc
        split_ifs at hc
        cases hc
        exact absurd rfl hp
      | ok cap =>
        rw [hc] at h
        dsimp only [Bind.bind, Except.bind] at h
        split_ifs at h
        · cases h; rfl
        · cases h; rfl
        · unfold addU64 at h
          split_ifs at h
          · dsimp only at h
            unfold Slab.writeNode at h
            dsimp only at h
            split_ifs at h <;> cases h
            · exact absurd rfl hp
            · rfl
          · cases h; exact absurd rfl hp
    · dsimp only at h
      cases hg : s.getNode s.freeListHead with
      | error e' =>
        rw [hg] at h; cases h
        exact .inl (getNode_error hg)
      | ok n' =>
        rw [hg] at h
        dsimp only [Bind.bind, Except.bind] at h
        have w : ∀ (s' : Slab) (k : Nat) (e' : Err), s'.writeNode! n k = .error e' → e' = .panic := by
          intro s' k e' h
          unfold Slab.writeNode! at h
          split at h <;> cases h
          rfl
        refine .inl ?_
        split at h
        · rename_i e' h1
          cases h
          cases n' <;> simp only at h1
          all_goals (try split_ifs at h1) <;> cases h1 <;> rfl
        · split at h
          · rename_i e' h1
            cases h
            exact w _ _ _ h1
          · cases h

theorem OnlyPanics.findLoop (s : Slab) (key : Nat) : ∀ fuel h, OnlyPanics (findLoop s.getNode key fuel h)
  | 0, _ => .diverge
  | fuel + 1, h => by
    refine .bind (.getNode s h) fun n => ?_
    cases n with
    | inner p k c0 c1 =>
      refine .bind (.pure _) fun _ => .bind (.pure _) fun _ => ?_
      dsimp only
      split
      · exact .pure _
      · exact .bind (.walkDown ..) fun _ => OnlyPanics.findLoop s key fuel _
    | leaf k cb q =>
      refine .bind (.pure _) fun _ => .bind (.pure _) fun _ => ?_
      dsimp only
      split <;> exact .pure _
    | _ => exact .bind .panic fun _ => .bind .panic fun _ => by split <;> exact .pure _

/-- C108: whatever the bytes of a slab are, `find_by_key` panics if it has no answer. -/
theorem C108_find_only_panics (s : Slab) (key fuel : Nat) (e : Err) :
    s.findByKey key fuel = .error e → e = .panic ∨ e = .diverge := by
  suffices h : OnlyPanics (s.findByKey key fuel) from h.out e
  unfold Slab.findByKey
  split
  · exact .pure _
  · exact .findLoop ..

/-- C86, C108: these functions can run for ever: where the root is its own child on both sides, they do so for every key that
the root's prefix admits, whatever the fuel. (`check_invariants` panics there, `C108_total`.) -/
theorem C86_cycle {s : Slab} {p k key : Nat} (hn : s.leafCount ≠ 0) (hp : p < 128)
    (hg : s.getNode s.rootNode = .ok (.inner p k s.rootNode s.rootNode)) (hk : p ≤ leadingZeros (key ^^^ k))
    (flag : Bool) (fuel depth : Nat) (hd : depth ≠ 0) :
    s.removeByKey key fuel = .error .diverge ∧ s.removeMinMax flag fuel = .error .diverge ∧
    s.findNodeSequence depth flag fuel = .error .diverge ∧ s.findByKey key fuel = .error .diverge := by
  have hw : walkDown p key = .ok (key.testBit (127 - p)) := if_pos hp
  refine ⟨?_, ?_, ?_, ?_⟩
  · have hl : ∀ fuel a b, removeLoop s.getNode key fuel a s.rootNode b = .error .diverge := by
      intro fuel
      induction fuel with
      | zero => intros; rfl
      | succ n ih =>
        intro a b
        unfold removeLoop
        rw [hg]
        dsimp only [Bind.bind, Except.bind]
        rw [hw]
        dsimp only
        rw [ite_self]
        exact ih _ _
    unfold Slab.removeByKey
    rw [if_neg hn, hg]
    dsimp only [Bind.bind, Except.bind]
    rw [hw]
    dsimp only
    rw [ite_self, hl]
  · have hl : ∀ fuel, minMaxLoop s.getNode flag fuel s.rootNode = .error .diverge := by
      intro fuel
      induction fuel with
      | zero => rfl
      | succ n ih =>
        unfold minMaxLoop
        rw [hg]
        dsimp only [Bind.bind, Except.bind]
        rw [ite_self]
        exact ih
    unfold Slab.removeMinMax
    rw [if_neg hn, hl]
    rfl
  · have hl : ∀ fuel rest, sequenceLoop s.getNode depth flag fuel (s.rootNode :: rest) [] = .error .diverge := by
      intro fuel
      induction fuel with
      | zero => intros; rfl
      | succ n ih =>
        intro rest
        unfold sequenceLoop
        rw [if_neg (by simpa using hd.symm)]
        dsimp only
        rw [hg]
        dsimp only [Bind.bind, Except.bind]
        rw [ite_self]
        exact ih _
    unfold Slab.findNodeSequence
    rw [if_neg hn, hl]
  · have hl : ∀ fuel, findLoop s.getNode key fuel s.rootNode = .error .diverge := by
      intro fuel
      induction fuel with
      | zero => rfl
      | succ n ih =>
        unfold findLoop
        rw [hg]
        dsimp only [Bind.bind, Except.bind, Node.prefixLen!, Node.key!]
        rw [if_neg (by omega)]
        rw [hw]
        dsimp only
        rw [ite_self]
        exact ih
    unfold Slab.findByKey
    rw [if_neg hn, hl]

/-- The root of the slab is replaced by such a node. -/
example : ∃ s, opened.writeNode (.inner 5 0 opened.rootNode opened.rootNode) opened.rootNode = .ok s ∧
    s.removeByKey 7 1000 = .error .diverge := by
  refine ⟨{ opened with data := patch opened.data (65 + opened.rootNode * opened.slotSize) (Node.inner 5 0 opened.rootNode opened.rootNode).bytes }, by decide +kernel, ?_⟩
  exact (C86_cycle (p := 5) (k := 0) (by decide +kernel) (by decide) (by decide +kernel) (by decide +kernel) true 1000 1 (by decide)).1

/-- A slab whose root is a slot it does not have: everything panics but `insert`, which finds no free slot. -/
example : let s := { opened with rootNode := 100 }
    s.removeByKey 5 9 = .error .panic ∧ s.removeMinMax true 9 = .error .panic ∧
    s.findNodeSequence 2 true 9 = .error .panic ∧ s.findByKey 5 9 = .error .panic ∧ s.insert (.leaf 5 [6] 7) = .error .io := by
  decide +kernel

/-- A free list that leads to a leaf makes `insert` panic. -/
example : { opened with freeListLen := 1, freeListHead := 2 }.insert (.leaf 5 [6] 7) = .error .panic := by decide +kernel

end AOB.Wasm
