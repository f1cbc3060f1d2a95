import Verif.Proofs.WrappingLoad
import Verif.Proofs.Reach
import Verif.Props.Failure
/-
On the markets that can arise, the build without overflow checks does what the build with them does.
-/
namespace AOB.Wrapping
variable {C : Type}

theorem removeWalk_leaf (s : Slab C) (k fuel : Nat) (r : Slab.RemoveRegs) (h : isInnerHandle r.child = false) :
    removeWalk s k (fuel + 1) r = (do
      let leaf ← idx s.leafNodes r.child
      if leaf.key ≠ k then .ok none else .ok (some r)) := by
  conv_lhs => unfold removeWalk
  simp [h]

/-- The one case in which `remove_by_key` panics is an index out of bounds, in either build. -/
theorem removeByKey_panic {s : Slab C} {ot : Option (Tree C)} (hr : RepT s ot) {key : Nat} {e : Entry C}
    (he : oents ot = [e]) (hne : e.key ≠ key) (h0 : s.leafNodes[0]?.map LeafNode.key = some key) :
    removeByKey s key = .error .panic := by
  have hcap := hr.cap
  have hlens := hr.lens
  unfold removeByKey
  cases ot with
  | none => simp [oents] at he
  | some t =>
    have hc : s.header.leafCount ≠ 0 := by rw [Ne, hr.count_zero]; simp
    have hmem := hr.mem
    rw [if_neg hc]
    simp only
    rw [hr.root_eq]
    cases t with
    | leaf e' =>
      simp only [oents, Tree.ents, List.cons.injEq, and_true] at he
      subst he
      rw [hmem.handle_leaf]
      simp only [Bool.false_eq_true, if_false]
      rw [show (Tree.leaf e').handle = e'.slot from rfl, idx_eq hmem.2.1, ok_bind]
      simp only [hne, if_false, ok_bind]
      have hs31 := hmem.1
      have h0lt : 0 < s.leafNodes.length := by
        have := lt_of_getElem? hmem.2.1
        omega
      rw [removeWalk_leaf _ _ _ _ (isInner_leaf (by norm_num)), idx_eq (List.getElem?_eq_getElem h0lt), ok_bind]
      rw [List.getElem?_eq_getElem h0lt] at h0
      simp only [Option.map_some, Option.some.injEq] at h0
      simp only [h0, ne_eq, not_true_eq_false, if_false, ok_bind]
      have : s.innerNodes[notU32 e'.slot]? = none := by
        rw [List.getElem?_eq_none_iff]
        unfold notU32 U32
        omega
      unfold idx
      rw [this]
      rfl
    | node i nk p l r =>
      exfalso
      have h1 := (Tree.node i nk p l r).ents_length
      simp only [oents] at he
      rw [he] at h1
      simp [Tree.inners] at h1

theorem removeByKey_eq {s : Slab C} {os} (hs : SRep s os) (key : Nat) : removeByKey s key = s.removeByKey key := by
  by_cases hp : s.removeByKey key = .error .panic
  · rw [hp]
    have hne : ∀ o ∈ os, o.id ≠ key := by
      intro o ho e
      obtain ⟨L, R, rfl⟩ := List.append_of_mem ho
      obtain ⟨s', h1, _⟩ := hs.remove
      rw [← e, h1] at hp
      cases hp
    obtain ⟨h1, h2⟩ := (hs.remove_missing_iff hne).1 hp
    obtain ⟨es, ⟨ot, hr, rfl⟩, rfl⟩ := hs
    obtain ⟨e, he⟩ := List.length_eq_one_iff.1 (by simpa using h1)
    exact removeByKey_panic hr he (hne e.order (List.mem_map_of_mem (by rw [he]; exact List.mem_singleton_self e))) h2
  · exact removeByKey_agree s key hp

/-- Both trees of the book hold some list of orders. -/
def Sound (b : OrderBook C) : Prop := ∀ side, ∃ os, SRep (b.getTree side) os

theorem cancelIn_eq {b : OrderBook C} (hb : Sound b) (id : Nat) : cancelIn b id = Market.cancelIn b id := by
  obtain ⟨os, hs⟩ := hb (getSideFromOrderId id)
  unfold cancelIn Market.cancelIn
  simp only
  rw [removeByKey_eq hs]
  congr 1

theorem Sound.remove {b : OrderBook C} (hb : Sound b) {side : Side} {key : Nat} {x s'}
    (h : (b.getTree side).removeByKey key = .ok (some x, s')) : Sound (b.setTree side s') := by
  obtain ⟨os, hs⟩ := hb side
  have hex : ∃ o ∈ os, o.id = key := by
    by_contra hn
    push Not at hn
    rcases hs.remove_missing hn with g | ⟨_, _, g⟩ <;> rw [g] at h <;> cases h
  obtain ⟨o, ho, rfl⟩ := hex
  obtain ⟨L, R, rfl⟩ := List.append_of_mem ho
  obtain ⟨s1, h1, h2, _⟩ := hs.remove
  rw [h1] at h
  cases h
  intro t
  cases side <;> cases t
  · exact ⟨_, h2⟩
  · exact hb .ask
  · exact hb .bid
  · exact ⟨_, h2⟩

theorem massCancelLoop_eq (ids : List Nat) : ∀ {b : OrderBook C}, Sound b → ∀ x y : Nat,
    massCancelLoop ids x y b = Market.massCancelLoop ids x y b := by
  induction ids with
  | nil => intro b _ x y; rfl
  | cons id ids ih =>
    intro b hb x y
    obtain ⟨os, hs⟩ := hb (getSideFromOrderId id)
    unfold massCancelLoop Market.massCancelLoop
    simp only
    rw [removeByKey_eq hs]
    cases hr : (b.getTree (getSideFromOrderId id)).removeByKey id with
    | error e => rfl
    | ok rs =>
      obtain ⟨r, s'⟩ := rs
      rw [ok_bind, ok_bind]
      cases r with
      | none => rfl
      | some l =>
        dsimp only
        congr 1; funext base
        congr 1; funext v
        congr 1; funext quote
        exact ih (hb.remove hr) _ _

theorem popN_eq {q : EventQueue C} (n : Nat) (h : q.header.count ≤ q.events.length)
    (h' : q.header.head ≤ q.events.length) (hl : 2 * q.events.length < U64) : popN q n = q.popN n := by
  have h1 := Nat.min_le_left q.header.count n
  unfold popN EventQueue.popN
  simp only
  rw [subU_ok h1, subU64_eq h1, ok_bind, ok_bind, addU64_eq (by omega), addU64_ok_iff.2 ⟨by omega, rfl⟩]

variable [CallbackInfo C]

theorem Known.sound {m : Market C} {a : RefMarket C} (h : Known m a) : Sound m.book :=
  fun side => ⟨_, h.rep.tree side⟩

theorem Known.newOrder_panic {m : Market C} {a : RefMarket C} (h : Known m a) {p : NewOrderParams C}
    (hp : (Instr.newOrder p).Ok) (he : m.newOrder p = .error .panic) : 2 ^ 64 ≤ a.seq + 1 := by
  have hr := newOrder_refines h.rep h.inv p hp
  cases hx : a.newOrder p with
  | ok x =>
    rw [hx] at hr
    obtain ⟨m1, h1, _⟩ := hr
    rw [h1] at he; cases he
  | error e' =>
    rw [hx] at hr
    simp only at hr
    rw [hr] at he
    cases he
    rcases ref_newOrder_error h.tick hx with h | h | h | h
    · cases h.1
    · cases h.1
    · cases h.1
    · exact h.2.1

theorem newOrderIn_eq {m : Market C} {a : RefMarket C} (h : Known m a) (hs : a.seq + 1 < 2 ^ 64)
    {p : NewOrderParams C} (hp : (Instr.newOrder p).Ok) (h0 : remU p.limitPrice m.tickSize = .ok 0)
    (ht : (p.postAllowed && decide (p.limitPrice < m.tickSize)) = false) :
    newOrderIn m.book p m.queue m.minBaseOrderSize = m.book.newOrder p m.queue m.minBaseOrderSize := by
  refine newOrderIn_agree _ _ _ _ (fun e => ?_)
  have : m.newOrder p = .error .panic := by
    unfold Market.newOrder
    rw [h0, ok_bind, if_neg (by simp), ht, if_neg (by simp), e]
    rfl
  have := Known.newOrder_panic h hp this
  omega

theorem exec_eq {m : Market C} {a : RefMarket C} (h : Known m a) (hs : a.seq + 1 < 2 ^ 64) {i : Instr C} (hi : i.Ok) :
    exec m i = m.exec i := by
  cases i with
  | newOrder p =>
    unfold exec Market.exec Market.newOrder
    simp only
    cases hr : remU p.limitPrice m.tickSize with
    | error e => rfl
    | ok r =>
      rw [ok_bind, ok_bind]
      by_cases h0 : r ≠ 0
      · rw [if_pos h0, if_pos h0]; rfl
      · rw [if_neg h0, if_neg h0]
        simp only [ne_eq, not_not] at h0
        subst h0
        cases ht : (p.postAllowed && decide (p.limitPrice < m.tickSize)) with
        | true => rfl
        | false =>
          simp only [Bool.false_eq_true, if_false]
          rw [newOrderIn_eq h hs hi hr ht]
          cases m.book.newOrder p m.queue m.minBaseOrderSize <;> rfl
  | cancelOrder id =>
    unfold exec Market.exec Market.cancelOrder
    simp only
    rw [cancelIn_eq (Known.sound h)]
    cases Market.cancelIn m.book id <;> rfl
  | massCancelOrders ids =>
    unfold exec Market.exec Market.massCancelOrders
    simp only
    rw [massCancelLoop_eq ids (Known.sound h)]
    cases Market.massCancelLoop ids 0 0 m.book <;> rfl
  | consumeEvents n =>
    unfold exec Market.exec Market.consumeEvents
    simp only
    obtain ⟨q', hq, _⟩ := h.rep.queue.popN n
    rw [popN_agree m.queue n (by rw [hq]; intro h; cases h)]
    cases m.queue.popN n <;> rfl

theorem step_eq {m : Market C} {a : RefMarket C} (h : Known m a) (hs : a.seq + 1 < 2 ^ 64) {i : Instr C} (hi : i.Ok) :
    step m i = m.step i := by
  unfold step Market.step
  rw [exec_eq h hs hi]
  cases m.exec i <;> rfl

theorem run_eq (is : List (Instr C)) : ∀ {m : Market C} {c : Config} {js : List (Instr C)}, ReachBy c js m →
    js.length + is.length < 2 ^ 64 → (∀ i ∈ is, i.Ok) → run m is = m.run is := by
  induction is with
  | nil => intro m c js _ _ _; rfl
  | cons i is ih =>
    intro m c js h hl hi
    rw [List.length_cons] at hl
    obtain ⟨h1, h2, _⟩ := h.known
    have e : step m i = m.step i := step_eq h1 (by omega) (hi i List.mem_cons_self)
    show run (step m i) is = (m.step i).run is
    rw [e]
    exact ih (h.step (hi i List.mem_cons_self)) (by rw [List.length_append, List.length_singleton]; omega)
      (fun j hj => hi j (List.mem_cons_of_mem _ hj))

end AOB.Wrapping
