import Verif.Model.Cost
/-
Forgetting the count: the counted functions of `Model/Cost.lean` return what the model's functions return.
-/
namespace AOB
open Tick
variable {α β C : Type}

@[simp] theorem Tick.free_res (x : Res α) : (free x).res = x := rfl
@[simp] theorem Tick.free_cost (x : Res α) : (free x).cost = 0 := rfl
@[simp] theorem Tick.round_res (x : Tick α) : (round x).res = x.res := rfl
@[simp] theorem Tick.round_cost (x : Tick α) : (round x).cost = x.cost + 1 := rfl
@[simp] theorem Tick.attempt_res (x : Tick α) : (attempt x).res = .ok x.res := rfl
@[simp] theorem Tick.attempt_cost (x : Tick α) : (attempt x).cost = x.cost := rfl

@[simp] theorem Tick.bind_res (x : Tick α) (f : α → Tick β) : (x >>= f).res = x.res >>= fun a => (f a).res := by
  show (Tick.bind x f).res = _
  unfold Tick.bind
  cases x.res <;> rfl

theorem Tick.ite_res {c : Prop} [Decidable c] (x y : Tick α) :
    (if c then x else y).res = if c then x.res else y.res := by split <;> rfl

theorem ok_bind' (a : α) (f : α → Res β) : (Except.ok a >>= f) = f a := rfl

namespace Slab

theorem insertWalkT_res (s : Slab C) (k : Nat) (fuel : Nat) : ∀ root parent,
    (s.insertWalkT k fuel root parent).res = s.insertWalk k fuel root parent := by
  induction fuel with
  | zero => intros; rfl
  | succ fuel ih =>
    intro root parent
    unfold insertWalkT insertWalk
    simp only [round_res, Tick.ite_res, bind_res, free_res, ih]

theorem insertLeafT_res (s : Slab C) (l : LeafNode) : (s.insertLeafT l).res = s.insertLeaf l := by
  unfold insertLeafT
  rw [Tick.ite_res]
  split
  · rfl
  · rename_i h
    simp only [bind_res, free_res, insertWalkT_res]
    unfold insertLeaf
    rw [if_neg h]
    rfl

theorem removeWalkT_res (s : Slab C) (k : Nat) (fuel : Nat) : ∀ r,
    (s.removeWalkT k fuel r).res = s.removeWalk k fuel r := by
  induction fuel with
  | zero => intros; rfl
  | succ fuel ih =>
    intro r
    unfold removeWalkT removeWalk
    simp only [round_res, Tick.ite_res, bind_res, free_res, ih]

theorem removeByKeyT_res (s : Slab C) (k : Nat) : (s.removeByKeyT k).res = s.removeByKey k := by
  unfold removeByKeyT
  rw [Tick.ite_res]
  by_cases h : s.header.leafCount = 0
  · rw [if_pos h]; unfold removeByKey; rw [if_pos h]; rfl
  · rw [if_neg h]
    unfold removeByKey
    rw [if_neg h]
    simp only [bind_res, free_res]
    show (s.removeStart k >>= _) = (s.removeStart k >>= _)
    congr 1
    funext start
    rcases start with ⟨_ | l, r⟩
    · simp only [bind_res, free_res, removeWalkT_res]; rfl
    · rfl

theorem findMinMaxWalkT_res (s : Slab C) (b : Bool) (fuel : Nat) : ∀ root,
    (s.findMinMaxWalkT b fuel root).res = s.findMinMaxWalk b fuel root := by
  induction fuel with
  | zero => intros; rfl
  | succ fuel ih =>
    intro root
    unfold findMinMaxWalkT findMinMaxWalk
    simp only [round_res, Tick.ite_res, bind_res, free_res, ih]

theorem findMinMaxT_res (s : Slab C) (b : Bool) : (s.findMinMaxT b).res = s.findMinMax b := by
  unfold findMinMaxT findMinMax
  simp only [Tick.ite_res, bind_res, free_res, findMinMaxWalkT_res]

end Slab

theorem OrderBook.findBboT_res (b : OrderBook C) (side : Side) : (b.findBboT side).res = b.findBbo side := by
  cases side <;> exact Slab.findMinMaxT_res _ _

theorem bootCandidateT_res (side : Side) (s : Slab C) : (bootCandidateT side s).res = bootCandidate side s := by
  cases side <;> exact Slab.findMinMaxT_res _ _

theorem postLeafT_res (side : Side) (l : Nat) (s : Slab C) (q : EventQueue C) (n : LeafNode) :
    (postLeafT side l s q n).res = postLeaf side l s q n := by
  unfold postLeafT postLeaf
  simp only [bind_res, attempt_res, ok_bind', Slab.insertLeafT_res]
  generalize s.insertLeaf n = first
  split
  · simp only [bind_res, free_res, bootCandidateT_res, Tick.ite_res, Slab.removeByKeyT_res, attempt_res, ok_bind',
      Slab.insertLeafT_res]
  · simp only [bind_res, free_res]

variable [CallbackInfo C]

theorem matchLoopT_res (p : NewOrderParams C) (minBase ml : Nat) : ∀ st,
    (matchLoopT p minBase ml st).res = matchLoop p minBase ml st := by
  induction ml with
  | zero => intro st; rfl
  | succ ml ih =>
    intro st
    unfold matchLoopT matchLoop
    simp only [round_res, bind_res, OrderBook.findBboT_res]
    congr 1
    funext bbo
    cases bbo with
    | none => rfl
    | some h =>
      simp only [bind_res, free_res]
      congr 1
      funext bo
      simp only [Tick.ite_res, free_res]
      congr 1
      congr 1
      generalize fp32Value p.side _ _ = v
      cases v with
      | none => rfl
      | some q => simp only [Tick.ite_res, bind_res, free_res, ih, Slab.removeByKeyT_res]

theorem OrderBook.newOrderT_res (b : OrderBook C) (p : NewOrderParams C) (q : EventQueue C) (minBase : Nat) :
    (b.newOrderT p q minBase).res = b.newOrder p q minBase := by
  unfold newOrderT newOrder
  simp only [bind_res, matchLoopT_res, Tick.ite_res, free_res, postLeafT_res]
  congr 1
  funext st
  congr 1
  congr 1
  funext g
  congr 1
  funext posted
  cases posted with
  | refused => simp only [bind_res, free_res]
  | posted h s q => rfl

namespace Market

theorem newOrderT_res (m : Market C) (p : NewOrderParams C) : (m.newOrderT p).res = m.newOrder p := by
  unfold newOrderT newOrder
  simp only [bind_res, Tick.ite_res, free_res, OrderBook.newOrderT_res]

omit [CallbackInfo C] in
theorem cancelOrderT_res (m : Market C) (id : Nat) : (m.cancelOrderT id).res = m.cancelOrder id := by
  unfold cancelOrderT cancelOrder cancelIn
  simp only [bind_res, Slab.removeByKeyT_res]
  cases (m.book.getTree (getSideFromOrderId id)).removeByKey id with
  | error e => rfl
  | ok x =>
    obtain ⟨r, s⟩ := x
    cases r with
    | none => rfl
    | some y =>
      obtain ⟨l, c⟩ := y
      simp only [ok_bind']
      cases fp32MulFloor l.baseQuantity l.price <;> rfl

omit [CallbackInfo C] in
theorem massCancelLoopT_res (ids : List Nat) : ∀ (b q : Nat) (book : OrderBook C),
    (massCancelLoopT ids b q book).res = massCancelLoop ids b q book := by
  induction ids with
  | nil => intros; rfl
  | cons id ids ih =>
    intro b q book
    unfold massCancelLoopT massCancelLoop
    simp only [round_res, bind_res, Slab.removeByKeyT_res]
    congr 1
    funext x
    obtain ⟨_ | ⟨l, c⟩, s⟩ := x
    · rfl
    · simp only [bind_res, free_res, ih]

omit [CallbackInfo C] in
theorem massCancelOrdersT_res (m : Market C) (ids : List Nat) :
    (m.massCancelOrdersT ids).res = m.massCancelOrders ids := by
  unfold massCancelOrdersT massCancelOrders
  simp only [bind_res, massCancelLoopT_res, free_res]

theorem execT_res (m : Market C) (i : Instr C) : (m.execT i).res = m.exec i := by
  cases i <;> simp only [execT, exec, bind_res, free_res, newOrderT_res, cancelOrderT_res, massCancelOrdersT_res]

end Market
end AOB
