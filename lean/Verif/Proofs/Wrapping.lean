import Verif.Model.Wrapping
import Verif.Proofs.ResLemmas
import Mathlib.Tactic.ByContra
/-
Where the build with overflow checks does not panic, the build without them does the same.
-/
namespace AOB

/-- The second computation does what the first one does, unless the first one panics. -/
def Follows {α : Type} (r r' : Res α) : Prop := r ≠ .error .panic → r' = r

namespace Follows

theorem refl {α : Type} (r : Res α) : Follows r r := fun _ => rfl

theorem of_eq {α : Type} {r r' : Res α} (h : r' = r) : Follows r r' := fun _ => h

theorem bind {α β : Type} {r r' : Res α} {f g : α → Res β} (h : Follows r r') (hf : ∀ a, Follows (f a) (g a)) :
    Follows (r >>= f) (r' >>= g) := by
  intro hp
  cases r with
  | ok a => rw [h (by intro h; cases h)]; exact hf a hp
  | error e => rw [h (by rintro ⟨⟩; exact hp rfl)]; rfl

theorem panic {α : Type} (r : Res α) : Follows (.error .panic) r := fun h => absurd rfl h

end Follows

namespace Wrapping

theorem addU32_agree (a b : Nat) : Follows (AOB.addU32 a b) (addU32 a b) := by
  unfold AOB.addU32 addU32
  split
  · exact Follows.of_eq (by rw [Nat.mod_eq_of_lt (by assumption)])
  · exact Follows.panic _

theorem addU64_agree (a b : Nat) : Follows (AOB.addU64 a b) (addU64 a b) := by
  unfold AOB.addU64 addU64
  split
  · exact Follows.of_eq (by rw [Nat.mod_eq_of_lt (by assumption)])
  · exact Follows.panic _

theorem mulU64_agree (a b : Nat) : Follows (AOB.mulU64 a b) (mulU64 a b) := by
  unfold AOB.mulU64 mulU64
  split
  · exact Follows.of_eq (by rw [Nat.mod_eq_of_lt (by assumption)])
  · exact Follows.panic _

theorem subU32_agree (a b : Nat) : Follows (subU a b) (subU32 a b) := by
  unfold subU subU32
  split
  · exact Follows.refl _
  · exact Follows.panic _

theorem subU64_agree (a b : Nat) : Follows (subU a b) (subU64 a b) := by
  unfold subU subU64
  split
  · exact Follows.refl _
  · exact Follows.panic _

/-- Split both sides into the same cases and go through their steps. -/
macro "agree" : tactic => `(tactic| repeat' first
  | exact Follows.refl _
  | exact Follows.panic _
  | exact addU32_agree _ _
  | exact addU64_agree _ _
  | exact mulU64_agree _ _
  | exact subU32_agree _ _
  | exact subU64_agree _ _
  | assumption
  | refine Follows.bind ?_ (fun _ => ?_)
  | split)

/-! ### `critbit.rs` -/

theorem roundPrice_agree (tick limit : Nat) (side : Side) :
    Follows (AOB.roundPrice tick limit side) (roundPrice tick limit side) := by
  unfold AOB.roundPrice roundPrice
  agree

theorem critBitMask_agree (p : Nat) : Follows (AOB.critBitMask p) (critBitMask p) := by
  unfold AOB.critBitMask critBitMask
  split
  · rename_i h
    exact Follows.of_eq (by rw [Nat.mod_eq_of_lt h])
  · exact Follows.panic _

theorem walkDown_agree (n : InnerNode) (k : Nat) : Follows (n.walkDown k) (walkDown n k) :=
  Follows.bind (critBitMask_agree _) (fun _ => Follows.refl _)

variable {C : Type}

theorem allocateLeaf_agree (s : Slab C) : Follows s.allocateLeaf (allocateLeaf s) := by
  unfold Slab.allocateLeaf allocateLeaf
  agree

theorem freeLeaf_agree (s : Slab C) (h : Nat) : Follows (s.freeLeaf h) (freeLeaf s h) := by
  unfold Slab.freeLeaf freeLeaf
  agree

theorem allocateInnerNode_agree (s : Slab C) : Follows s.allocateInnerNode (allocateInnerNode s) := by
  unfold Slab.allocateInnerNode allocateInnerNode
  agree

theorem freeInnerNode_agree (s : Slab C) (h : Nat) : Follows (s.freeInnerNode h) (freeInnerNode s h) := by
  unfold Slab.freeInnerNode freeInnerNode
  agree

theorem insertWalk_agree (s : Slab C) (k fuel root : Nat) (parent : Option (Nat × Bool)) :
    Follows (s.insertWalk k fuel root parent) (insertWalk s k fuel root parent) := by
  induction fuel generalizing root parent with
  | zero => exact Follows.refl _
  | succ fuel ih =>
    unfold Slab.insertWalk insertWalk
    split
    · refine Follows.bind (Follows.refl _) (fun n => ?_)
      dsimp only
      split
      · exact Follows.bind (walkDown_agree _ _) (fun _ => ih _ _)
      · exact Follows.refl _
    · exact Follows.refl _

theorem mapIo_agree {α : Type} {r r' : Res α} (h : Follows r r') :
    Follows (Slab.mapIoSlabFull r) (Slab.mapIoSlabFull r') := by
  by_cases hp : r = .error .panic
  · subst hp; exact Follows.panic _
  · rw [h hp]; exact Follows.refl _

theorem unwrapIo_agree {α : Type} {r r' : Res α} (h : Follows r r') : Follows (Slab.unwrapIo r) (Slab.unwrapIo r') := by
  by_cases hp : r = .error .panic
  · subst hp; exact Follows.panic _
  · rw [h hp]; exact Follows.refl _

theorem insertLeaf_agree (s : Slab C) (l : LeafNode) : Follows (s.insertLeaf l) (insertLeaf s l) := by
  unfold Slab.insertLeaf insertLeaf
  split
  · refine Follows.bind (mapIo_agree (allocateLeaf_agree _)) (fun _ => ?_)
    agree
  · refine Follows.bind (insertWalk_agree _ _ _ _ _) (fun stop => ?_)
    cases stop with
    | clobber root => exact Follows.refl _
    | split root parent shared =>
      refine Follows.bind (critBitMask_agree _) (fun _ => ?_)
      refine Follows.bind (mapIo_agree (allocateLeaf_agree _)) (fun _ => ?_)
      refine Follows.bind (Follows.refl _) (fun _ => ?_)
      refine Follows.bind (unwrapIo_agree (allocateInnerNode_agree _)) (fun _ => ?_)
      agree

theorem removeWalk_agree (s : Slab C) (k fuel : Nat) (r : Slab.RemoveRegs) :
    Follows (s.removeWalk k fuel r) (removeWalk s k fuel r) := by
  induction fuel generalizing r with
  | zero => exact Follows.refl _
  | succ fuel ih =>
    unfold Slab.removeWalk removeWalk
    split
    · refine Follows.bind (Follows.refl _) (fun n => ?_)
      exact Follows.bind (walkDown_agree _ _) (fun _ => ih _)
    · exact Follows.refl _

theorem removeByKey_agree (s : Slab C) (k : Nat) : Follows (s.removeByKey k) (removeByKey s k) := by
  unfold Slab.removeByKey removeByKey
  split
  · exact Follows.refl _
  · refine Follows.bind ?_ (fun start => ?_)
    · split
      · refine Follows.bind (Follows.refl _) (fun n => ?_)
        exact Follows.bind (walkDown_agree _ _) (fun _ => Follows.refl _)
      · exact Follows.refl _
    · obtain ⟨o, regs⟩ := start
      cases o with
      | some l => exact Follows.bind (freeLeaf_agree _ _) (fun _ => Follows.refl _)
      | none =>
        refine Follows.bind (removeWalk_agree _ _ _ _) (fun stop => ?_)
        cases stop with
        | none => exact Follows.refl _
        | some r =>
          refine Follows.bind (Follows.refl _) (fun _ => ?_)
          refine Follows.bind (Follows.refl _) (fun _ => ?_)
          refine Follows.bind (subU32_agree _ _) (fun _ => ?_)
          refine Follows.bind (Follows.refl _) (fun _ => ?_)
          refine Follows.bind (freeLeaf_agree _ _) (fun _ => ?_)
          exact Follows.bind (freeInnerNode_agree _ _) (fun _ => Follows.refl _)

/-! ### `event_queue.rs` -/

theorem pushBack_agree (q : EventQueue C) (e : AnyEvent) (a b : Option C) :
    Follows (q.pushBack e a b) (pushBack q e a b) := by
  unfold EventQueue.pushBack pushBack
  agree

theorem push_agree (q : EventQueue C) (e : AnyEvent) (a b : Option C) : Follows (q.push e a b) (push q e a b) :=
  Follows.bind (pushBack_agree _ _ _ _) (fun _ => Follows.refl _)

theorem genOrderId_agree (q : EventQueue C) (price : Nat) (side : Side) :
    Follows (q.genOrderId price side) (genOrderId q price side) :=
  Follows.bind (Follows.bind (addU64_agree _ _) (fun _ => Follows.refl _)) (fun _ => Follows.refl _)

theorem popN_agree (q : EventQueue C) (n : Nat) : Follows (q.popN n) (popN q n) := by
  unfold EventQueue.popN popN
  agree

/-! ### `orderbook.rs` -/

theorem summary_agree (p : NewOrderParams C) (b q : Nat) :
    Follows (AOB.summaryNotPosted p b q) (summaryNotPosted p b q) := by
  unfold AOB.summaryNotPosted summaryNotPosted
  agree

theorem unwrapInsert_agree {r r' : Res ((Nat × Option LeafNode) × Slab C)} (h : Follows r r') :
    Follows (unwrapInsert r) (unwrapInsert r') := by
  by_cases hp : r = .error .panic
  · subst hp; exact Follows.panic _
  · rw [h hp]; exact Follows.refl _

theorem postLeaf_agree (side : Side) (limit : Nat) (s : Slab C) (q : EventQueue C) (l : LeafNode) :
    Follows (AOB.postLeaf side limit s q l) (postLeaf side limit s q l) := by
  unfold AOB.postLeaf postLeaf
  by_cases hp : s.insertLeaf l = .error .panic
  · rw [hp]; exact Follows.panic _
  · rw [insertLeaf_agree s l hp]
    generalize s.insertLeaf l = r
    by_cases hf : r = .error (.ao .slabOutOfSpace)
    · subst hf
      refine Follows.bind (Follows.refl _) (fun _ => ?_)
      refine Follows.bind (Follows.refl _) (fun _ => ?_)
      refine Follows.bind (Follows.refl _) (fun _ => ?_)
      dsimp only
      split
      · refine Follows.bind (removeByKey_agree _ _) (fun _ => ?_)
        refine Follows.bind (Follows.refl _) (fun _ => ?_)
        refine Follows.bind (push_agree _ _ _ _) (fun _ => ?_)
        exact Follows.bind (unwrapInsert_agree (insertLeaf_agree _ _)) (fun _ => Follows.refl _)
      · exact Follows.refl _
    · have e : ∀ (f : Res (PostResult C)), (match r with
          | .error (.ao .slabOutOfSpace) => f
          | r => do
            let (h, slab) ← unwrapInsert r
            .ok (.posted h slab q)) = (do
            let (h, slab) ← unwrapInsert r
            .ok (.posted h slab q)) := by
        intro f
        split
        · exact absurd rfl hf
        · rfl
      refine Follows.of_eq ?_
      exact (e _).trans (e _).symm

variable [CallbackInfo C]

theorem matchLoop_agree (p : NewOrderParams C) (minBase ml : Nat) (st : MatchState C) :
    Follows (AOB.matchLoop p minBase ml st) (matchLoop p minBase ml st) := by
  induction ml generalizing st with
  | zero => exact Follows.refl _
  | succ ml ih =>
    unfold AOB.matchLoop matchLoop
    refine Follows.bind (Follows.refl _) (fun bbo => ?_)
    cases bbo with
    | none => exact Follows.refl _
    | some h =>
      refine Follows.bind (Follows.refl _) (fun bo => ?_)
      dsimp only
      split
      · exact Follows.refl _
      · split
        · exact Follows.refl _
        · generalize fp32Value p.side (min (min bo.baseQuantity st.baseRem)
            ((fp32Div st.quoteRem bo.price).getD u64Max)) bo.price = v
          cases v with
          | none => exact Follows.refl _
          | some q =>
            dsimp only
            split
            · exact Follows.refl _
            · refine Follows.bind (Follows.refl _) (fun self => ?_)
              split
              · split
                · exact Follows.refl _
                · refine Follows.bind (Follows.refl _) (fun _ => ?_)
                  refine Follows.bind (push_agree _ _ _ _) (fun _ => ?_)
                  refine Follows.bind (removeByKey_agree _ _) (fun _ => ?_)
                  exact Follows.bind (Follows.refl _) (fun _ => ih _)
              · refine Follows.bind (Follows.refl _) (fun _ => ?_)
                refine Follows.bind (push_agree _ _ _ _) (fun _ => ?_)
                refine Follows.bind (subU64_agree _ _) (fun _ => ?_)
                refine Follows.bind (Follows.refl _) (fun _ => ?_)
                refine Follows.bind (subU64_agree _ _) (fun _ => ?_)
                refine Follows.bind (subU64_agree _ _) (fun _ => ?_)
                split
                · refine Follows.bind (removeByKey_agree _ _) (fun _ => ?_)
                  refine Follows.bind (Follows.refl _) (fun _ => ?_)
                  exact Follows.bind (push_agree _ _ _ _) (fun _ => ih _)
                · exact ih _

theorem newOrderIn_agree (b : OrderBook C) (p : NewOrderParams C) (q : EventQueue C) (minBase : Nat) :
    Follows (b.newOrder p q minBase) (newOrderIn b p q minBase) := by
  unfold OrderBook.newOrder newOrderIn
  refine Follows.bind (matchLoop_agree _ _ _ _) (fun st => ?_)
  dsimp only
  split
  · exact Follows.bind (summary_agree _ _ _) (fun _ => Follows.refl _)
  · refine Follows.bind (genOrderId_agree _ _ _) (fun _ => ?_)
    refine Follows.bind (postLeaf_agree _ _ _ _ _) (fun r => ?_)
    cases r with
    | refused => exact Follows.bind (summary_agree _ _ _) (fun _ => Follows.refl _)
    | posted h slab queue =>
      refine Follows.bind (Follows.refl _) (fun _ => ?_)
      refine Follows.bind (subU64_agree _ _) (fun _ => ?_)
      generalize fp32Value p.side (min ((fp32Div st.quoteRem p.limitPrice).getD u64Max) st.baseRem) p.limitPrice = v
      cases v with
      | none => exact Follows.refl _
      | some v => agree

omit [CallbackInfo C] in
theorem cancelIn_agree (b : OrderBook C) (id : Nat) : Follows (Market.cancelIn b id) (cancelIn b id) :=
  Follows.bind (removeByKey_agree _ _) (fun _ => Follows.refl _)

omit [CallbackInfo C] in
theorem massCancelLoop_agree (ids : List Nat) (x y : Nat) (b : OrderBook C) :
    Follows (Market.massCancelLoop ids x y b) (massCancelLoop ids x y b) := by
  induction ids generalizing x y b with
  | nil => exact Follows.refl _
  | cons id ids ih =>
    unfold Market.massCancelLoop massCancelLoop
    refine Follows.bind (removeByKey_agree _ _) (fun rs => ?_)
    obtain ⟨r, slab⟩ := rs
    cases r with
    | none => exact Follows.refl _
    | some x =>
      refine Follows.bind (Follows.refl _) (fun _ => ?_)
      refine Follows.bind (Follows.refl _) (fun _ => ?_)
      exact Follows.bind (Follows.refl _) (fun _ => ih _ _ _)

end Wrapping
end AOB
