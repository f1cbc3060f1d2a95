import Verif.Proofs.CostErase
import Verif.Proofs.RefineMarket
import Verif.Proofs.ResLemmas
/-
Bounds on the rounds counted in `Model/Cost.lean`.
-/
namespace AOB
open Tick
variable {α β C : Type}

/-- `x` takes at most `n` rounds, and its result, if any, satisfies `Q`. -/
structure Bnd (x : Tick α) (n : Nat) (Q : α → Prop) : Prop where
  cost : x.cost ≤ n
  post : ∀ a, x.res = .ok a → Q a

namespace Bnd

theorem mono {x : Tick α} {n n' : Nat} {Q Q' : α → Prop} (h : Bnd x n Q) (hn : n ≤ n') (hq : ∀ a, Q a → Q' a) :
    Bnd x n' Q' := ⟨h.1.trans hn, fun a ha => hq a (h.2 a ha)⟩

theorem free {x : Res α} {n : Nat} {Q : α → Prop} (h : ∀ a, x = .ok a → Q a) : Bnd (Tick.free x) n Q :=
  ⟨Nat.zero_le _, h⟩

theorem ok {a : α} {n : Nat} {Q : α → Prop} (h : Q a) : Bnd (Tick.free (.ok a)) n Q :=
  free (by rintro _ ⟨⟩; exact h)

theorem error {e : Err} {n : Nat} {Q : α → Prop} : Bnd (Tick.free (.error e)) n Q := free (by rintro _ ⟨⟩)

theorem round {x : Tick α} {n : Nat} {Q : α → Prop} (h : Bnd x n Q) : Bnd (Tick.round x) (n + 1) Q :=
  ⟨Nat.succ_le_succ h.1, h.2⟩

theorem bind {x : Tick α} {f : α → Tick β} {n k : Nat} {Q : α → Prop} {R : β → Prop} (h : Bnd x n Q)
    (hf : ∀ a, x.res = .ok a → Q a → Bnd (f a) k R) : Bnd (x >>= f) (n + k) R := by
  show Bnd (Tick.bind x f) (n + k) R
  have h1 := h.1
  unfold Tick.bind
  cases hx : x.res with
  | error e => exact ⟨by simp only; omega, by rintro _ ⟨⟩⟩
  | ok a =>
    have := hf a hx (h.2 a hx)
    exact ⟨Nat.add_le_add h1 this.1, this.2⟩

theorem freeBind {x : Res α} {f : α → Tick β} {k : Nat} {R : β → Prop}
    (hf : ∀ a, x = .ok a → Bnd (f a) k R) : Bnd (Tick.free x >>= f) k R := by
  have := bind (x := Tick.free x) (f := f) (n := 0) (Q := fun _ => True) (free fun _ _ => trivial)
    (fun a ha _ => hf a ha)
  simpa using this

theorem attemptBind {x : Tick α} {f : Res α → Tick β} {n k : Nat} {R : β → Prop} (h : x.cost ≤ n)
    (hf : ∀ a, Bnd (f a) k R) : Bnd (Tick.attempt x >>= f) (n + k) R :=
  bind (Q := fun _ => True) ⟨h, fun _ _ => trivial⟩ fun a _ _ => hf a

theorem ite {c : Prop} [Decidable c] {x y : Tick α} {n : Nat} {Q : α → Prop} (h1 : c → Bnd x n Q)
    (h2 : ¬ c → Bnd y n Q) : Bnd (if c then x else y) n Q := by
  by_cases h : c
  · rw [if_pos h]; exact h1 h
  · rw [if_neg h]; exact h2 h

end Bnd

/-! ### One descent -/

namespace Slab

theorem findMinMaxWalkT_cost (s : Slab C) (b : Bool) (k : Nat) : ∀ f root i,
    s.findMinMaxWalk b k root = .ok i → (s.findMinMaxWalkT b f root).cost ≤ k := by
  induction k with
  | zero => intro f root i h; cases h
  | succ k ih =>
    intro f root i h
    cases f with
    | zero => exact Nat.zero_le _
    | succ f =>
      unfold findMinMaxWalk at h
      unfold findMinMaxWalkT
      refine (Bnd.round (Bnd.ite (Q := fun _ => True) (fun hc => ?_) fun _ => .ok trivial)).1
      rw [if_pos hc] at h
      obtain ⟨n, hn, h⟩ := bind_ok h
      refine Bnd.freeBind fun a ha => ⟨?_, fun _ _ => trivial⟩
      rw [hn] at ha
      cases ha
      exact ih _ _ _ h

theorem insertWalkT_cost (s : Slab C) (key : Nat) (k : Nat) : ∀ f root p i,
    s.insertWalk key k root p = .ok i → (s.insertWalkT key f root p).cost ≤ k := by
  induction k with
  | zero => intro f root p i h; cases h
  | succ k ih =>
    intro f root p i h
    cases f with
    | zero => exact Nat.zero_le _
    | succ f =>
      unfold insertWalk at h
      unfold insertWalkT
      refine (Bnd.round (Bnd.ite (Q := fun _ => True) (fun hc => ?_) fun _ => Bnd.freeBind fun a _ =>
        Bnd.ite (fun _ => .ok trivial) fun _ => .ok trivial)).1
      rw [if_pos hc] at h
      obtain ⟨n, hn, h⟩ := bind_ok h
      refine Bnd.freeBind fun a ha => ?_
      rw [hn] at ha
      cases ha
      refine Bnd.ite (fun hs => Bnd.freeBind fun a ha => ⟨?_, fun _ _ => trivial⟩) fun _ => .ok trivial
      rw [if_pos hs] at h
      obtain ⟨r, hr, h⟩ := bind_ok h
      rw [hr] at ha
      cases ha
      exact ih _ _ _ _ h

theorem removeWalkT_cost (s : Slab C) (key : Nat) (k : Nat) : ∀ f r i,
    s.removeWalk key k r = .ok i → (s.removeWalkT key f r).cost ≤ k := by
  induction k with
  | zero => intro f r i h; cases h
  | succ k ih =>
    intro f r i h
    cases f with
    | zero => exact Nat.zero_le _
    | succ f =>
      unfold removeWalk at h
      unfold removeWalkT
      refine (Bnd.round (Bnd.ite (Q := fun _ => True) (fun hc => ?_) fun _ => Bnd.freeBind fun a _ =>
        Bnd.ite (fun _ => .ok trivial) fun _ => .ok trivial)).1
      rw [if_pos hc] at h
      obtain ⟨n, hn, h⟩ := bind_ok h
      refine Bnd.freeBind fun a ha => ?_
      rw [hn] at ha
      cases ha
      obtain ⟨w, hw, h⟩ := bind_ok h
      refine Bnd.freeBind fun a ha => ⟨?_, fun _ _ => trivial⟩
      rw [hw] at ha
      cases ha
      exact ih _ _ _ h

/-- A descent that starts at a leaf is over at once. -/
theorem removeWalkT_leaf (s : Slab C) (key f : Nat) (r : RemoveRegs) (h : isInnerHandle r.child = false) :
    (s.removeWalkT key f r).cost ≤ 1 := by
  cases f with
  | zero => exact Nat.zero_le _
  | succ f =>
    unfold removeWalkT
    rw [h, if_neg (by decide)]
    exact (Bnd.round (n := 0) (Q := fun _ => True) (Bnd.freeBind fun a _ =>
        Bnd.ite (fun _ => .ok trivial) fun _ => .ok trivial)).1

end Slab

/-- The longest descent in a tree of `n` orders: at most one node per bit of the key and the leaf, and never more nodes
than orders. -/
def walkBound (n : Nat) : Nat := min 129 n

theorem walkBound_mono {a b : Nat} (h : a ≤ b) : walkBound a ≤ walkBound b := by unfold walkBound; omega

theorem RepT.walk {s : Slab C} {t : Tree C} (hr : RepT s (some t)) : t.depth + 1 ≤ walkBound t.ents.length := by
  have h1 := hr.wf.depth_le_128
  have h2 := t.depth_le_inners
  have h3 := t.ents_length
  unfold walkBound
  omega

theorem SRep.findMinMaxT_cost {s : Slab C} {os} (hs : SRep s os) (b : Bool) :
    (s.findMinMaxT b).cost ≤ walkBound os.length := by
  obtain ⟨es, ⟨ot, hr, rfl⟩, rfl⟩ := hs
  rw [List.length_map]
  unfold Slab.findMinMaxT
  cases ot with
  | none => rw [if_pos (hr.count_zero.2 rfl)]; exact Nat.zero_le _
  | some t =>
    refine (Bnd.ite (Q := fun _ => True) (fun _ => .ok trivial) fun _ => ?_).1
    refine (Bnd.bind (n := t.depth + 1) (k := 0) (Q := fun _ => True) ⟨?_, fun _ _ => trivial⟩ fun _ _ _ => .ok trivial).mono
      hr.walk fun _ h => h
    rw [hr.root_eq]
    cases b
    · obtain ⟨e, _, hw⟩ := findMinWalk_spec s t (t.depth + 1) hr.mem (by omega)
      exact Slab.findMinMaxWalkT_cost s _ _ _ _ _ hw
    · obtain ⟨e, _, hw⟩ := findMaxWalk_spec s t (t.depth + 1) hr.mem (by omega)
      exact Slab.findMinMaxWalkT_cost s _ _ _ _ _ hw

theorem SRep.insertLeafT_cost {s : Slab C} {os} (hs : SRep s os) {l : LeafNode} (hk : l.key < 2 ^ 128) :
    (s.insertLeafT l).cost ≤ walkBound os.length := by
  obtain ⟨es, ⟨ot, hr, rfl⟩, rfl⟩ := hs
  rw [List.length_map]
  unfold Slab.insertLeafT
  cases ot with
  | none => rw [if_pos (hr.count_zero.2 rfl)]; exact Nat.zero_le _
  | some t =>
    refine (Bnd.ite (Q := fun _ => True) (fun _ => .free fun _ _ => trivial) fun _ => ?_).1
    refine (Bnd.bind (n := t.depth + 1) (k := 0) (Q := fun _ => True) ⟨?_, fun _ _ => trivial⟩
      fun _ _ _ => .free fun _ _ => trivial).mono hr.walk fun _ h => h
    rw [hr.root_eq]
    rcases insertWalk_spec s l.key hk t [] (t.depth + 1) hr.mem hr.wf (by simp [Ctx.Fits]) (by omega) with
      ⟨c', e, _, _, _, hw⟩ | ⟨c', u, sh, _, _, _, _, hw⟩
    · exact Slab.insertWalkT_cost s _ _ _ _ _ _ hw
    · exact Slab.insertWalkT_cost s _ _ _ _ _ _ hw

theorem SRep.removeByKeyT_cost {s : Slab C} {os} (hs : SRep s os) (k : Nat) :
    (s.removeByKeyT k).cost ≤ walkBound os.length := by
  obtain ⟨es, ⟨ot, hr, rfl⟩, rfl⟩ := hs
  rw [List.length_map]
  unfold Slab.removeByKeyT
  cases ot with
  | none => rw [if_pos (hr.count_zero.2 rfl)]; exact Nat.zero_le _
  | some t =>
    refine (Bnd.ite (Q := fun _ => True) (fun _ => .ok trivial) fun _ => Bnd.freeBind fun st hst => ?_).1
    refine Bnd.mono (n := t.depth + 1) ?_ hr.walk fun _ h => h
    rcases st with ⟨_ | lc, regs⟩
    swap
    · exact .free fun _ _ => trivial
    refine Bnd.bind (k := 0) (Q := fun _ => True) ⟨?_, fun _ _ => trivial⟩ fun _ _ _ => .free fun _ _ => trivial
    unfold Slab.removeStart at hst
    rw [hr.root_eq] at hst
    cases t with
    | leaf e =>
      have := hr.mem.handle_leaf
      rw [this, if_neg (by decide)] at hst
      obtain ⟨lf, hl, hst⟩ := bind_ok hst
      have hreg := congrArg (fun x => x.2.child) (Except.ok.inj hst)
      exact (Slab.removeWalkT_leaf s k _ _ (by simp only at hreg ⊢; rw [← hreg]; decide)).trans (by simp)
    | node i nk p l r =>
      have hi := hr.mem.1
      obtain ⟨a, b, h1, h2, h3⟩ := removeStart_spec s k hr.mem hr.wf (fuel := (Tree.node i nk p l r).depth) le_rfl
      rw [show (Tree.node i nk p l r).handle = notU32 i from rfl] at hst
      rw [if_pos (isInner_not (by omega)), notU32_notU32 (by omega)] at hst
      obtain ⟨nn, hn, hst⟩ := bind_ok hst
      rw [idx_eq h1] at hn
      cases hn
      obtain ⟨w, hw, hst⟩ := bind_ok hst
      rw [h2] at hw
      cases hw
      cases hst
      rcases h3 with ⟨f', c', e, _, _, hw⟩ | ⟨_, hw⟩
      · exact (Slab.removeWalkT_cost s _ _ _ _ _ hw).trans (Nat.le_succ _)
      · exact (Slab.removeWalkT_cost s _ _ _ _ _ hw).trans (Nat.le_succ _)

/-- What is left after a removal is again a tree. -/
theorem SRep.removed {s s' : Slab C} {os} (hs : SRep s os) {k : Nat} {r} (h : s.removeByKey k = .ok (r, s')) :
    ∃ os', SRep s' os' ∧ os'.length ≤ os.length := by
  by_cases hk : ∃ o ∈ os, o.id = k
  · obtain ⟨o, ho, rfl⟩ := hk
    obtain ⟨L, R, rfl⟩ := List.append_of_mem ho
    obtain ⟨s1, h1, h2, _⟩ := hs.remove
    rw [h1] at h
    cases h
    exact ⟨_, h2, by simp⟩
  · rcases hs.remove_missing (key := k) (fun o ho he => hk ⟨o, ho, he⟩) with h1 | ⟨_, _, h1⟩
    · rw [h1] at h; cases h; exact ⟨_, hs, le_rfl⟩
    · rw [h1] at h; cases h

theorem SRep.removeT {s : Slab C} {os} (hs : SRep s os) (k : Nat) :
    Bnd (s.removeByKeyT k) (walkBound os.length) fun x => ∃ os', SRep x.2 os' ∧ os'.length ≤ os.length :=
  ⟨hs.removeByKeyT_cost k, fun a ha => hs.removed (r := a.1) (by rw [← Slab.removeByKeyT_res, ha])⟩

theorem findBboT_cost {side : Side} {b : OrderBook C} {l} (hp : PRep side (b.getTree side) l) :
    (b.findBboT side).cost ≤ walkBound l.length := by
  cases side with
  | bid => exact (SRep.findMinMaxT_cost hp true).trans (by simp [length_prio])
  | ask => exact (SRep.findMinMaxT_cost hp false).trans (by simp [length_prio])

theorem bootCandidateT_cost (side : Side) {s : Slab C} {os} (hp : SRep s os) :
    (bootCandidateT side s).cost ≤ walkBound os.length := by
  cases side with
  | bid => exact hp.findMinMaxT_cost false
  | ask => exact hp.findMinMaxT_cost true

/-- Each event pushed takes one free slot. -/
theorem push_count {q q' : EventQueue C} {e : AnyEvent} {m t : Option C} (h : q.push e m t = .ok q') :
    q.header.count ≠ q.events.length ∧ q'.header.count = q.header.count + 1 ∧
      q'.events.length = q.events.length := by
  unfold EventQueue.push EventQueue.pushBack at h
  by_cases hf : q.full = true
  · rw [if_pos hf] at h; cases h
  · rw [if_neg hf] at h
    obtain ⟨x, hx, h⟩ := bind_ok h
    obtain ⟨_, _, hx⟩ := bind_ok hx
    obtain ⟨j, _, hx⟩ := bind_ok hx
    obtain ⟨ev, hev, hx⟩ := bind_ok hx
    obtain ⟨ct, hct, hx⟩ := bind_ok hx
    obtain ⟨_, _, hx⟩ := bind_ok hx
    obtain ⟨_, _, hx⟩ := bind_ok hx
    cases hx
    cases h
    refine ⟨by simpa [EventQueue.full] using hf, ?_, ?_⟩
    · unfold addU64 at hct
      split at hct
      · cases hct; rfl
      · cases hct
    · unfold setIdx at hev
      split at hev
      · cases hev; simp
      · cases hev

/-! ### The matching loop -/

/-- The free slots of the event queue. -/
def roomOf (q : EventQueue C) : Nat := q.events.length - q.header.count

variable [CallbackInfo C]

theorem matchLoopT_bnd (p : NewOrderParams C) (minBase N : Nat) : ∀ (ml : Nat) (st : MatchState C) (opp : List (Order C)),
    PRep p.side.opposite (st.book.getTree p.side.opposite) opp → opp.length ≤ N →
    st.queue.header.count ≤ st.queue.events.length →
    Bnd (matchLoopT p minBase ml st) (min ml (roomOf st.queue + 1) * (2 * walkBound N + 1))
      (fun st' => st'.book.getTree p.side = st.book.getTree p.side) := by
  intro ml
  induction ml with
  | zero => intro st opp _ _ _; unfold matchLoopT; exact .ok rfl
  | succ ml ih =>
    intro st opp hp hN hq
    have hround : min (ml + 1) (roomOf st.queue + 1) * (2 * walkBound N + 1) =
        walkBound N + (walkBound N + min ml (roomOf st.queue) * (2 * walkBound N + 1)) + 1 := by
      rw [show min (ml + 1) (roomOf st.queue + 1) = min ml (roomOf st.queue) + 1 by omega, Nat.add_mul]
      omega
    rw [hround]
    unfold matchLoopT
    refine Bnd.round (Bnd.bind (Q := fun _ => True)
      ⟨(findBboT_cost hp).trans (walkBound_mono hN), fun _ _ => trivial⟩ fun bbo hbbo _ => ?_)
    cases opp with
    | nil =>
      rw [OrderBook.findBboT_res, findBbo_nil hp] at hbbo
      cases hbbo
      exact .ok rfl
    | cons o rest =>
      obtain ⟨h, hbbo', hat⟩ := findBbo_cons hp
      rw [OrderBook.findBboT_res, hbbo'] at hbbo
      cases hbbo
      have next : ∀ (q1 q2 : EventQueue C) (st' : MatchState C) (opp' : List (Order C)),
          q1.header.count = st.queue.header.count + 1 → q1.events.length = st.queue.events.length →
          st.queue.header.count ≠ st.queue.events.length →
          (q2 = q1 ∨ q2.header.count = q1.header.count + 1 ∧ q2.events.length = q1.events.length ∧
            q1.header.count ≠ q1.events.length) →
          st'.queue = q2 → PRep p.side.opposite (st'.book.getTree p.side.opposite) opp' → opp'.length ≤ N →
          st'.book.getTree p.side = st.book.getTree p.side →
          Bnd (matchLoopT p minBase ml st') (min ml (roomOf st.queue) * (2 * walkBound N + 1))
            (fun st' => st'.book.getTree p.side = st.book.getTree p.side) := by
        intro q1 q2 st' opp' c1 c2 c3 c4 c5 c6 c7 c8
        have hc : st'.queue.header.count ≤ st'.queue.events.length := by
          rw [c5]
          rcases c4 with rfl | ⟨d1, d2, d3⟩
          · omega
          · omega
        refine (ih st' opp' c6 c7 hc).mono (Nat.mul_le_mul_right _ ?_) fun a ha => ha.trans c8
        have : roomOf st'.queue + 1 ≤ roomOf st.queue := by
          unfold roomOf
          rw [c5]
          rcases c4 with rfl | ⟨d1, d2, d3⟩
          · omega
          · omega
        omega
      refine Bnd.freeBind fun bo hbo => ?_
      rw [idx_eq hat.leaf] at hbo
      cases hbo
      refine Bnd.ite (fun _ => .ok rfl) fun _ => Bnd.ite (fun _ => .ok rfl) fun _ => ?_
      simp only
      generalize fp32Value p.side _ _ = v
      cases v with
      | none => exact .error
      | some qv =>
        refine Bnd.ite (fun _ => .ok rfl) fun _ => Bnd.freeBind fun w _ => Bnd.ite (fun _ =>
          Bnd.ite (fun _ => .error) fun _ => ?_) fun _ => ?_
        · refine Bnd.freeBind fun c _ => Bnd.freeBind fun q1 hq1 => ?_
          obtain ⟨p1, p2, p3⟩ := push_count hq1
          refine Bnd.bind ((SRep.removeT hp _).mono (walkBound_mono (by simpa [length_prio] using hN)) fun _ h => h)
            fun x _ ⟨os', hx, hl⟩ => Bnd.freeBind fun _ _ => ?_
          refine next q1 q1 _ (prio p.side.opposite os') p2 p3 p1 (Or.inl rfl) rfl ?_ ?_ ?_
          · simpa [PRep, prio_prio] using hx
          · rw [length_prio]; rw [length_prio] at hl; exact hl.trans hN
          · simp
        · refine Bnd.freeBind fun c _ => Bnd.freeBind fun q1 hq1 => Bnd.freeBind fun left _ => ?_
          obtain ⟨p1, p2, p3⟩ := push_count hq1
          obtain ⟨s1, hset, hat1, hss1⟩ := hat.setQty left
          refine Bnd.freeBind fun s2 hs2 => ?_
          rw [hset] at hs2
          cases hs2
          refine Bnd.freeBind fun _ _ => Bnd.freeBind fun _ _ => Bnd.ite (fun _ => ?_) fun _ => ?_
          · refine Bnd.bind ((SRep.removeT hat1.rep _).mono
              (walkBound_mono (by simpa [length_prio] using hN)) fun _ h => h)
              fun x _ ⟨os', hx, hl⟩ => Bnd.freeBind fun _ _ => Bnd.freeBind fun q2 hq2 => ?_
            obtain ⟨r1, r2, r3⟩ := push_count hq2
            refine next q1 q2 _ (prio p.side.opposite os') p2 p3 p1 (Or.inr ⟨r2, r3, r1⟩) rfl ?_ ?_ ?_
            · simpa [PRep, prio_prio] using hx
            · rw [length_prio]; rw [length_prio] at hl; exact hl.trans (by simpa using hN)
            · simp
          · refine (next q1 q1 _ _ p2 p3 p1 (Or.inl rfl) rfl (by simpa using hat1.rep) (by simpa using hN)
              (by simp)).mono (Nat.le_add_left _ _) fun _ h => h

omit [CallbackInfo C] in
theorem Tick.bind_inv {x : Tick α} {f : α → Tick β} {b : β} (h : (x >>= f).res = .ok b) :
    ∃ a, x.res = .ok a ∧ (f a).res = .ok b ∧ (x >>= f).cost = x.cost + (f a).cost := by
  have h' : (Tick.bind x f).res = .ok b := h
  show ∃ a, x.res = .ok a ∧ (f a).res = .ok b ∧ (Tick.bind x f).cost = x.cost + (f a).cost
  unfold Tick.bind at h' ⊢
  cases hx : x.res with
  | error e => rw [hx] at h'; cases h'
  | ok a => rw [hx] at h'; exact ⟨a, rfl, h', rfl⟩

/-- A round of matching pushes at most two events. -/
theorem matchLoopT_low (p : NewOrderParams C) (minBase : Nat) : ∀ (ml : Nat) (st st' : MatchState C),
    (matchLoopT p minBase ml st).res = .ok st' →
    st'.queue.header.count ≤ st.queue.header.count + 2 * (matchLoopT p minBase ml st).cost := by
  intro ml
  induction ml with
  | zero => intro st st' h; cases h; exact Nat.le_add_right _ _
  | succ ml ih =>
    intro st st' h
    unfold matchLoopT at h ⊢
    rw [round_res] at h
    rw [round_cost]
    obtain ⟨bbo, _, h, hc⟩ := bind_inv h
    rw [hc]
    cases bbo with
    | none => cases h; simp only; omega
    | some hd =>
      simp only at h ⊢
      obtain ⟨bo, _, h, hc⟩ := bind_inv h
      rw [hc]
      by_cases h1 : (p.postOnly || !crosses p.side p.limitPrice bo.price) = true
      · rw [if_pos h1] at h ⊢; cases h; simp only; omega
      rw [if_neg h1] at h ⊢
      by_cases h2 : min (min bo.baseQuantity st.baseRem) ((fp32Div st.quoteRem bo.price).getD u64Max) = 0
      · rw [if_pos h2] at h ⊢; cases h; simp only; omega
      rw [if_neg h2] at h ⊢
      generalize fp32Value p.side _ _ = v at h ⊢
      cases v with
      | none => cases h
      | some q =>
        simp only at h ⊢
        by_cases h3 : min q st.quoteRem = 0
        · rw [if_pos h3] at h ⊢; cases h; simp only; omega
        rw [if_neg h3] at h ⊢
        obtain ⟨w, _, h, hc⟩ := bind_inv h
        rw [hc]
        cases w with
        | true =>
          simp only [if_true] at h ⊢
          by_cases h4 : p.selfTradeBehavior = .abortTransaction
          · rw [if_pos h4] at h; cases h
          rw [if_neg h4] at h ⊢
          obtain ⟨_, _, h, hc⟩ := bind_inv h; rw [hc]
          obtain ⟨q1, hq1, h, hc⟩ := bind_inv h; rw [hc]
          obtain ⟨_, _, h, hc⟩ := bind_inv h; rw [hc]
          obtain ⟨_, _, h, hc⟩ := bind_inv h; rw [hc]
          have h5 := ih _ _ h
          have h6 := (push_count hq1).2.1
          simp only at h5
          omega
        | false =>
          simp only [Bool.false_eq_true, if_false] at h ⊢
          obtain ⟨_, _, h, hc⟩ := bind_inv h; rw [hc]
          obtain ⟨q1, hq1, h, hc⟩ := bind_inv h; rw [hc]
          obtain ⟨left, _, h, hc⟩ := bind_inv h; rw [hc]
          obtain ⟨_, _, h, hc⟩ := bind_inv h; rw [hc]
          obtain ⟨_, _, h, hc⟩ := bind_inv h; rw [hc]
          obtain ⟨_, _, h, hc⟩ := bind_inv h; rw [hc]
          have h6 := (push_count hq1).2.1
          by_cases h4 : left < minBase
          · rw [if_pos h4] at h ⊢
            obtain ⟨_, _, h, hc⟩ := bind_inv h; rw [hc]
            obtain ⟨_, _, h, hc⟩ := bind_inv h; rw [hc]
            obtain ⟨q2, hq2, h, hc⟩ := bind_inv h; rw [hc]
            have h5 := ih _ _ h
            have h7 := (push_count hq2).2.1
            simp only at h5
            omega
          · rw [if_neg h4] at h ⊢
            have h5 := ih _ _ h
            simp only at h5
            omega

omit [CallbackInfo C] in
theorem postLeafT_count {side : Side} {l : Nat} {s : Slab C} {q q' : EventQueue C} {n : LeafNode} {hd s'}
    (h : (postLeafT side l s q n).res = .ok (.posted hd s' q')) : q'.header.count ≤ q.header.count + 1 := by
  unfold postLeafT at h
  obtain ⟨first, _, h, _⟩ := bind_inv h
  split at h
  · obtain ⟨_, _, h, _⟩ := bind_inv h
    obtain ⟨_, _, h, _⟩ := bind_inv h
    obtain ⟨_, _, h, _⟩ := bind_inv h
    simp only at h
    split at h
    · obtain ⟨_, _, h, _⟩ := bind_inv h
      obtain ⟨_, _, h, _⟩ := bind_inv h
      obtain ⟨q1, hq1, h, _⟩ := bind_inv h
      obtain ⟨_, _, h, _⟩ := bind_inv h
      obtain ⟨_, _, h, _⟩ := bind_inv h
      cases h
      exact (push_count hq1).2.1.le
    · cases h
  · obtain ⟨_, _, h, _⟩ := bind_inv h
    cases h
    exact Nat.le_succ _

/-- The rounds of a new order are at least half the events it pushes, the eviction apart. -/
theorem newOrderT_low {b b' : OrderBook C} {p : NewOrderParams C} {q q' : EventQueue C} {minBase : Nat} {s : OrderSummary}
    (h : (b.newOrderT p q minBase).res = .ok (s, b', q')) :
    q'.header.count ≤ q.header.count + 2 * (b.newOrderT p q minBase).cost + 1 := by
  unfold OrderBook.newOrderT at h ⊢
  obtain ⟨st, hst, h, hc⟩ := bind_inv h
  rw [hc]
  have h1 := matchLoopT_low p minBase _ _ _ hst
  simp only at h1 h
  split at h
  · obtain ⟨_, _, h, _⟩ := bind_inv h
    cases h
    omega
  · obtain ⟨g, hg, h, _⟩ := bind_inv h
    obtain ⟨posted, hp, h, _⟩ := bind_inv h
    have hgc : g.2.header.count = st.queue.header.count := by
      have hg' : st.queue.genOrderId p.limitPrice p.side = .ok g := hg
      unfold EventQueue.genOrderId EventQueue.genSeqNum at hg'
      obtain ⟨x, hx, hg'⟩ := bind_ok hg'
      obtain ⟨n, hn, hx⟩ := bind_ok hx
      cases hx
      cases hg'
      rfl
    cases posted with
    | refused =>
      obtain ⟨_, _, h, _⟩ := bind_inv h
      cases h
      omega
    | posted hd s' q1 =>
      have h2 := postLeafT_count hp
      simp only [free_res] at h
      obtain ⟨_, _, h⟩ := bind_ok h
      obtain ⟨_, _, h⟩ := bind_ok h
      split at h
      · cases h
      · obtain ⟨_, _, h⟩ := bind_ok h
        obtain ⟨_, _, h⟩ := bind_ok h
        obtain ⟨_, _, h⟩ := bind_ok h
        cases h
        omega

omit [CallbackInfo C] in
theorem postLeafT_cost {side : Side} {l : Nat} {s : Slab C} {q : EventQueue C} {n : LeafNode} {os}
    (hs : SRep s os) (hk : n.key < 2 ^ 128) : (postLeafT side l s q n).cost ≤ 4 * walkBound os.length := by
  unfold postLeafT
  rw [show 4 * walkBound os.length =
    walkBound os.length + (walkBound os.length + (walkBound os.length + walkBound os.length)) by omega]
  refine (Bnd.attemptBind (R := fun _ => True) (hs.insertLeafT_cost hk) fun first => ?_).1
  split
  · refine Bnd.bind (Q := fun _ => True) ⟨bootCandidateT_cost side hs, fun _ _ => trivial⟩ fun _ _ _ =>
      Bnd.freeBind fun _ _ => Bnd.freeBind fun cl _ => Bnd.ite (fun _ => ?_) fun _ => .ok trivial
    refine Bnd.bind (hs.removeT _) fun x _ ⟨os', hx, hl⟩ => Bnd.freeBind fun y _ => Bnd.freeBind fun q' _ => ?_
    refine (Bnd.attemptBind (k := 0) (hx.insertLeafT_cost hk) fun _ => Bnd.freeBind fun _ _ => .ok trivial).mono
      (walkBound_mono hl) fun _ h => h
  · exact Bnd.freeBind fun _ _ => .ok trivial

omit [CallbackInfo C] in
theorem genOrderId_lt {q q' : EventQueue C} {l id : Nat} {side : Side} (hl : l < 2 ^ 64)
    (h : q.genOrderId l side = .ok (id, q')) : id < 2 ^ 128 := by
  unfold EventQueue.genOrderId at h
  obtain ⟨x, hx, h⟩ := bind_ok h
  unfold EventQueue.genSeqNum at hx
  obtain ⟨n, hn, hx⟩ := bind_ok hx
  cases hx
  unfold addU64 at hn
  split at hn
  · rename_i hlt
    cases h
    apply Nat.or_lt_two_pow
    · rw [Nat.shiftLeft_eq]; omega
    · simp only [U64] at hlt ⊢
      cases side <;> simp only <;> omega
  · cases hn

theorem newOrderT_cost {b : OrderBook C} {p : NewOrderParams C} {q : EventQueue C} {minBase : Nat}
    {own opp : List (Order C)} (h1 : PRep p.side (b.getTree p.side) own)
    (h2 : PRep p.side.opposite (b.getTree p.side.opposite) opp) (hq : q.header.count ≤ q.events.length)
    (hl : p.limitPrice < 2 ^ 64) :
    (b.newOrderT p q minBase).cost ≤
      min p.matchLimit (roomOf q + 1) * (2 * walkBound opp.length + 1) + 4 * walkBound own.length := by
  unfold OrderBook.newOrderT
  refine (Bnd.bind (R := fun _ => True) (matchLoopT_bnd p minBase opp.length p.matchLimit _ opp h2 le_rfl hq)
    fun st _ hst => Bnd.ite (fun _ => Bnd.freeBind fun _ _ => .ok trivial) fun _ => Bnd.freeBind fun g hg => ?_).1
  simp only at hst
  refine Bnd.bind (k := 0) (Q := fun _ => True) ⟨?_, fun _ _ => trivial⟩ fun posted _ _ => ?_
  · rw [hst]
    refine (postLeafT_cost h1 (genOrderId_lt hl hg)).trans (by rw [length_prio]; exact le_rfl)
  · cases posted with
    | refused => exact Bnd.freeBind fun _ _ => .ok trivial
    | posted _ _ _ => exact .free fun _ _ => trivial

omit [CallbackInfo C] in
theorem massCancelLoopT_cost (N : Side → Nat) (ids : List Nat) : ∀ (b q : Nat) (book : OrderBook C) (os : Side → List (Order C)),
    (∀ side, SRep (book.getTree side) (os side)) → (∀ side, (os side).length ≤ N side) →
    (Market.massCancelLoopT ids b q book).cost ≤ (ids.map fun id => walkBound (N (getSideFromOrderId id)) + 1).sum := by
  induction ids with
  | nil => intros; exact Nat.zero_le _
  | cons id ids ih =>
    intro b q book os hs hN
    unfold Market.massCancelLoopT
    rw [List.map_cons, List.sum_cons, Nat.add_right_comm]
    refine (Bnd.round (Q := fun _ => True) (Bnd.bind (((hs _).removeT id).mono (walkBound_mono (hN _)) fun _ h => h)
      fun x _ ⟨os', hx, hl⟩ => ?_)).1
    cases hx1 : x.1 with
    | none => exact .error
    | some y =>
      refine Bnd.freeBind fun _ _ => Bnd.freeBind fun _ _ => Bnd.freeBind fun _ _ => ⟨?_, fun _ _ => trivial⟩
      refine ih _ _ _ (fun side => if side = getSideFromOrderId id then os' else os side) ?_ ?_
      · intro side
        by_cases he : side = getSideFromOrderId id
        · subst he; rw [if_pos rfl, getTree_setTree]; exact hx
        · rw [if_neg he]
          have : ((book.setTree (getSideFromOrderId id) x.2).getTree side) = book.getTree side := by
            revert he; cases side <;> cases getSideFromOrderId id <;> intro he <;> first | rfl | exact absurd rfl he
          rw [this]; exact hs side
      · intro side
        by_cases he : side = getSideFromOrderId id
        · simp only [if_pos he]; subst he; exact hl.trans (hN _)
        · simp only [if_neg he]; exact hN side

end AOB
