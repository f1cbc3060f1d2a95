import Verif.Proofs.BufferLemmas
import Verif.Proofs.WireLemmas
/-
Every slab, queue and book operation that succeeds keeps the values within the ranges of their fields and the sizes
of the arrays.
-/
namespace AOB

variable {C : Type}

theorem U32_eq : U32 = 256 ^ 4 := by decide
theorem U64_eq : U64 = 256 ^ 8 := by decide

theorem forall_set {α : Type} {P : α → Prop} {xs : List α} {i : Nat} {x : α} (h : ∀ y ∈ xs, P y) (hx : P x) :
    ∀ y ∈ xs.set i x, P y := by
  intro y hy
  rcases List.mem_or_eq_of_mem_set hy with h' | h'
  · exact h y h'
  · exact h' ▸ hx

theorem forall_setIdx {α : Type} {P : α → Prop} {xs ys : List α} {i : Nat} {x : α} (h : ∀ y ∈ xs, P y) (hx : P x)
    (he : setIdx xs i x = .ok ys) : (∀ y ∈ ys, P y) ∧ ys.length = xs.length := by
  obtain ⟨_, rfl⟩ := setIdx_ok_iff.1 he
  exact ⟨forall_set h hx, List.length_set⟩

theorem length_setIdx {α : Type} {xs ys : List α} {i : Nat} {x : α} (he : setIdx xs i x = .ok ys) :
    ys.length = xs.length := by
  obtain ⟨_, rfl⟩ := setIdx_ok_iff.1 he
  exact List.length_set

theorem forall_idx {α : Type} {P : α → Prop} {xs : List α} {i : Nat} {x : α} (h : ∀ y ∈ xs, P y)
    (he : idx xs i = .ok x) : P x := h x (List.mem_of_getElem? (idx_ok.1 he))

namespace Slab

theorem SameShape.refl (s : Slab C) : s.SameShape s := ⟨rfl, rfl, rfl⟩

theorem SameShape.trans {a b c : Slab C} (h : a.SameShape b) (g : b.SameShape c) : a.SameShape c :=
  ⟨g.1.trans h.1, g.2.1.trans h.2.1, g.2.2.trans h.2.2⟩

/-- `s'` is still representable, with the same array sizes. -/
def Kept (s s' : Slab C) : Prop := s'.Fits ∧ s.SameShape s'

theorem Kept.refl {s : Slab C} (h : s.Fits) : s.Kept s := ⟨h, SameShape.refl s⟩

theorem Kept.trans {a b c : Slab C} (h : a.Kept b) (g : b.Kept c) : a.Kept c := ⟨g.1, h.2.trans g.2⟩

theorem Kept.header {s s' : Slab C} (h : s.Kept s') {hd : SlabHeader} (hf : hd.Fits) :
    s.Kept { s' with header := hd } := ⟨⟨hf, h.1.2⟩, h.2⟩

theorem Kept.leaves {s s' : Slab C} (h : s.Kept s') {ls : List LeafNode} (hf : ∀ n ∈ ls, n.Fits)
    (hl : ls.length = s'.leafNodes.length) : s.Kept { s' with leafNodes := ls } :=
  ⟨⟨h.1.1, hf, h.1.2.2⟩, hl.trans h.2.1, h.2.2⟩

theorem Kept.inners {s s' : Slab C} (h : s.Kept s') {ls : List InnerNode} (hf : ∀ n ∈ ls, n.Fits)
    (hl : ls.length = s'.innerNodes.length) : s.Kept { s' with innerNodes := ls } :=
  ⟨⟨h.1.1, h.1.2.1, hf⟩, h.2.1, hl.trans h.2.2.1, h.2.2.2⟩

theorem Kept.infos {s s' : Slab C} (h : s.Kept s') {ls : List C}
    (hl : ls.length = s'.callbackInfos.length) : s.Kept { s' with callbackInfos := ls } :=
  ⟨⟨h.1.1, h.1.2.1, h.1.2.2⟩, h.2.1, h.2.2.1, hl.trans h.2.2.2⟩

theorem allocateLeaf_kept {s s' : Slab C} {k : Nat} (hf : s.Fits) (h : s.allocateLeaf = .ok (k, s')) :
    s.Kept s' ∧ k < 256 ^ 4 := by
  have hh := hf.1
  obtain ⟨h1, h2, h3, h4, h5, h6, h7, h8⟩ := hh
  unfold allocateLeaf at h
  split at h
  · split at h
    · cases h
    · obtain ⟨b, hb, h⟩ := bind_ok h
      obtain ⟨hb', rfl⟩ := addU32_ok_iff.1 hb
      rw [U32_eq] at hb'
      obtain ⟨rfl, rfl⟩ := Prod.mk.inj (Except.ok.inj h)
      exact ⟨(Kept.refl hf).header ⟨h1, h2, hb', h4, h5, h6, h7, h8⟩, h3⟩
  · obtain ⟨f, hi, h⟩ := bind_ok h
    obtain ⟨l, hl, h⟩ := bind_ok h
    obtain ⟨hl', rfl⟩ := subU_ok_iff.1 hl
    obtain ⟨rfl, rfl⟩ := Prod.mk.inj (Except.ok.inj h)
    refine ⟨(Kept.refl hf).header ⟨?_, ?_, h3, h4, h5, h6, h7, h8⟩, h2⟩
    · show s.header.leafFreeListLen - 1 < _
      omega
    · show f.baseQuantity % U32 < _
      rw [U32_eq]; exact Nat.mod_lt _ (by decide)

theorem allocateInnerNode_kept {s s' : Slab C} {k : Nat} (hf : s.Fits) (h : s.allocateInnerNode = .ok (k, s')) :
    s.Kept s' ∧ k < 256 ^ 4 := by
  have hh := hf.1
  obtain ⟨h1, h2, h3, h4, h5, h6, h7, h8⟩ := hh
  have hn : ∀ x, notU32 x < 256 ^ 4 := fun x => by unfold notU32; rw [U32_eq]; omega
  unfold allocateInnerNode at h
  split at h
  · split at h
    · cases h
    · obtain ⟨b, hb, h⟩ := bind_ok h
      obtain ⟨hb', rfl⟩ := addU32_ok_iff.1 hb
      rw [U32_eq] at hb'
      obtain ⟨rfl, rfl⟩ := Prod.mk.inj (Except.ok.inj h)
      exact ⟨(Kept.refl hf).header ⟨h1, h2, h3, h4, h5, hb', h7, h8⟩, hn _⟩
  · obtain ⟨f, hi, h⟩ := bind_ok h
    obtain ⟨l, hl, h⟩ := bind_ok h
    obtain ⟨hl', rfl⟩ := subU_ok_iff.1 hl
    obtain ⟨rfl, rfl⟩ := Prod.mk.inj (Except.ok.inj h)
    refine ⟨(Kept.refl hf).header ⟨h1, h2, h3, ?_, ?_, h6, h7, h8⟩, hn _⟩
    · show s.header.innerNodeFreeListLen - 1 < _
      omega
    · show f.prefixLen % U32 < _
      rw [U32_eq]; exact Nat.mod_lt _ (by decide)

theorem freeLeaf_kept {s s' : Slab C} {k : Nat} (hf : s.Fits) (hk : k < 256 ^ 4) (h : s.freeLeaf k = .ok s') :
    s.Kept s' := by
  have hh := hf.1
  obtain ⟨h1, h2, h3, h4, h5, h6, h7, h8⟩ := hh
  unfold freeLeaf at h
  obtain ⟨ls, hls, h⟩ := bind_ok h
  obtain ⟨l, hl, h⟩ := bind_ok h
  obtain ⟨hl', rfl⟩ := addU32_ok_iff.1 hl
  rw [U32_eq] at hl'
  obtain rfl := Except.ok.inj h
  have : (∀ n ∈ ls, n.Fits) ∧ ls.length = s.leafNodes.length := by
    split at hls
    · obtain ⟨n, hn, hls⟩ := bind_ok hls
      have hnf : n.Fits := forall_idx hf.2.1 hn
      exact forall_setIdx hf.2.1 (x := { n with baseQuantity := s.header.leafFreeListHead }) ⟨hnf.1, Nat.lt_of_lt_of_le h2 (show 256 ^ 4 ≤ 256 ^ 8 by decide)⟩ hls
    · obtain rfl := Except.ok.inj hls
      exact ⟨hf.2.1, rfl⟩
  exact ((Kept.refl hf).leaves this.1 this.2).header ⟨hl', hk, h3, h4, h5, h6, h7, h8⟩

theorem freeInnerNode_kept {s s' : Slab C} {k : Nat} (hf : s.Fits) (h : s.freeInnerNode k = .ok s') :
    s.Kept s' := by
  have hh := hf.1
  obtain ⟨h1, h2, h3, h4, h5, h6, h7, h8⟩ := hh
  have hn : ∀ x, notU32 x < 256 ^ 4 := fun x => by unfold notU32; rw [U32_eq]; omega
  unfold freeInnerNode at h
  obtain ⟨ls, hls, h⟩ := bind_ok h
  obtain ⟨l, hl, h⟩ := bind_ok h
  obtain ⟨hl', rfl⟩ := addU32_ok_iff.1 hl
  rw [U32_eq] at hl'
  obtain rfl := Except.ok.inj h
  have : (∀ n ∈ ls, n.Fits) ∧ ls.length = s.innerNodes.length := by
    split at hls
    · obtain ⟨n, hn, hls⟩ := bind_ok hls
      have hnf : n.Fits := forall_idx hf.2.2 hn
      exact forall_setIdx hf.2.2 (x := { n with prefixLen := s.header.innerNodeFreeListHead }) ⟨hnf.1, Nat.lt_of_lt_of_le h5 (show 256 ^ 4 ≤ 256 ^ 8 by decide), hnf.2.2⟩ hls
    · obtain rfl := Except.ok.inj hls
      exact ⟨hf.2.2, rfl⟩
  exact ((Kept.refl hf).inners this.1 this.2).header ⟨h1, h2, h3, hl', hn _, h6, h7, h8⟩

theorem child_lt {n : InnerNode} (h : n.Fits) (b : Bool) : n.child b < 256 ^ 4 := by
  unfold InnerNode.child; split
  · exact h.2.2.2
  · exact h.2.2.1

theorem setChild_fits {n : InnerNode} (h : n.Fits) (b : Bool) {k : Nat} (hk : k < 256 ^ 4) : (n.setChild b k).Fits := by
  unfold InnerNode.setChild; split
  · exact ⟨h.1, h.2.1, h.2.2.1, hk⟩
  · exact ⟨h.1, h.2.1, hk, h.2.2.2⟩

theorem walkDown_lt {n : InnerNode} (h : n.Fits) {x : Nat} {r : Nat × Bool} (he : n.walkDown x = .ok r) :
    r.1 < 256 ^ 4 := by
  unfold InnerNode.walkDown at he
  obtain ⟨m, _, he⟩ := bind_ok he
  obtain rfl := Except.ok.inj he
  exact child_lt h _

theorem insertWalk_lt {s : Slab C} (hf : s.Fits) {x : Nat} {fuel : Nat} :
    ∀ {root : Nat} {parent : Option (Nat × Bool)} {stop : InsertStop}, root < 256 ^ 4 →
      insertWalk s x fuel root parent = .ok stop → ∀ r p sh, stop = .split r p sh → r < 256 ^ 4 := by
  induction fuel with
  | zero => intro root parent stop _ h; cases h
  | succ fuel ih =>
    intro root parent stop hr h r p sh hs
    unfold insertWalk at h
    split at h
    · obtain ⟨n, hn, h⟩ := bind_ok h
      dsimp only at h
      split at h
      · obtain ⟨w, hw, h⟩ := bind_ok h
        exact ih (walkDown_lt (forall_idx hf.2.2 hn) hw) h r p sh hs
      · obtain rfl := Except.ok.inj h
        cases hs; exact hr
    · obtain ⟨n, hn, h⟩ := bind_ok h
      split at h
      · obtain rfl := Except.ok.inj h; cases hs
      · obtain rfl := Except.ok.inj h
        cases hs; exact hr

theorem relink_kept {s s' : Slab C} {at_ : Option (Nat × Bool)} {k : Nat} (hf : s.Fits) (hk : k < 256 ^ 4)
    (h : s.relink at_ k = .ok s') : s.Kept s' := by
  unfold relink at h
  split at h
  · obtain ⟨n, hn, h⟩ := bind_ok h
    obtain ⟨ls, hls, h⟩ := bind_ok h
    obtain rfl := Except.ok.inj h
    have := forall_setIdx hf.2.2 (setChild_fits (forall_idx hf.2.2 hn) _ hk) hls
    exact (Kept.refl hf).inners this.1 this.2
  · obtain rfl := Except.ok.inj h
    obtain ⟨h1, h2, h3, h4, h5, h6, h7, h8⟩ := hf.1
    exact (Kept.refl hf).header ⟨h1, h2, h3, h4, h5, h6, hk, h8⟩

theorem mapIoSlabFull_ok {α : Type} {r : Res α} {x : α} (h : mapIoSlabFull r = .ok x) : r = .ok x := by
  unfold mapIoSlabFull at h; split at h
  · cases h
  · exact h

theorem unwrapIo_ok {α : Type} {r : Res α} {x : α} (h : unwrapIo r = .ok x) : r = .ok x := by
  unfold unwrapIo at h; split at h
  · cases h
  · exact h

theorem insertLeaf_kept {s s' : Slab C} {l : LeafNode} {r : Nat × Option LeafNode} (hf : s.Fits) (hl : l.Fits)
    (h : s.insertLeaf l = .ok (r, s')) : s.Kept s' := by
  unfold insertLeaf at h
  split at h
  · obtain ⟨⟨k, s1⟩, ha, h⟩ := bind_ok h
    obtain ⟨hk1, hlt⟩ := allocateLeaf_kept hf (mapIoSlabFull_ok ha)
    obtain ⟨ls, hls, h⟩ := bind_ok h
    obtain ⟨c, hc, h⟩ := bind_ok h
    obtain ⟨hc', rfl⟩ := addU32_ok_iff.1 hc
    rw [U32_eq] at hc'
    obtain ⟨_, rfl⟩ := Prod.mk.inj (Except.ok.inj h)
    have := forall_setIdx hk1.1.2.1 hl hls
    obtain ⟨h1, h2, h3, h4, h5, h6, h7, h8⟩ := hk1.1.1
    exact (hk1.leaves this.1 this.2).header ⟨h1, h2, h3, h4, h5, h6, hlt, hc'⟩
  · obtain ⟨stop, hstop, h⟩ := bind_ok h
    cases stop with
    | clobber root =>
      obtain ⟨o, ho, h⟩ := bind_ok h
      obtain ⟨ls, hls, h⟩ := bind_ok h
      obtain ⟨_, rfl⟩ := Prod.mk.inj (Except.ok.inj h)
      have := forall_setIdx hf.2.1 hl hls
      exact (Kept.refl hf).leaves this.1 this.2
    | split root parent shared =>
      have hroot := insertWalk_lt hf hf.1.2.2.2.2.2.2.1 hstop root parent shared rfl
      obtain ⟨mask, hm, h⟩ := bind_ok h
      have hsh : shared < 128 := by
        unfold critBitMask at hm; split at hm
        · assumption
        · cases hm
      obtain ⟨⟨k, s1⟩, ha, h⟩ := bind_ok h
      obtain ⟨hk1, hlt⟩ := allocateLeaf_kept hf (mapIoSlabFull_ok ha)
      obtain ⟨ls, hls, h⟩ := bind_ok h
      have h2 := forall_setIdx hk1.1.2.1 hl hls
      have hk2 := hk1.leaves h2.1 h2.2
      obtain ⟨⟨ih, s3⟩, ha3, h⟩ := bind_ok h
      obtain ⟨hk3, hlt3⟩ := allocateInnerNode_kept hk2.1 (unwrapIo_ok ha3)
      have hk3 := hk2.trans hk3
      obtain ⟨n, hn, h⟩ := bind_ok h
      have hnf := forall_idx hk3.1.2.2 hn
      obtain ⟨ls4, hls4, h⟩ := bind_ok h
      have hnf' : InnerNode.Fits { n with prefixLen := shared, key := l.key } :=
        ⟨hl.1, Nat.lt_of_lt_of_le hsh (by decide), hnf.2.2⟩
      have h4 := forall_setIdx hk3.1.2.2 (setChild_fits (setChild_fits hnf' _ hlt) _ hroot) hls4
      have hk4 := hk3.inners h4.1 h4.2
      obtain ⟨s5, hs5, h⟩ := bind_ok h
      have hk5 := hk4.trans (relink_kept hk4.1 hlt3 hs5)
      obtain ⟨c, hc, h⟩ := bind_ok h
      obtain ⟨hc', rfl⟩ := addU32_ok_iff.1 hc
      rw [U32_eq] at hc'
      obtain ⟨_, rfl⟩ := Prod.mk.inj (Except.ok.inj h)
      obtain ⟨g1, g2, g3, g4, g5, g6, g7, g8⟩ := hk5.1.1
      exact hk5.header ⟨g1, g2, g3, g4, g5, g6, g7, hc'⟩

theorem removeWalk_lt {s : Slab C} (hf : s.Fits) {x : Nat} {fuel : Nat} :
    ∀ {g r : RemoveRegs}, g.child < 256 ^ 4 → removeWalk s x fuel g = .ok (some r) → r.child < 256 ^ 4 := by
  induction fuel with
  | zero => intro g r _ h; cases h
  | succ fuel ih =>
    intro g r hg h
    unfold removeWalk at h
    split at h
    · obtain ⟨n, hn, h⟩ := bind_ok h
      obtain ⟨w, hw, h⟩ := bind_ok h
      exact ih (walkDown_lt (forall_idx hf.2.2 hn) hw) h
    · obtain ⟨n, hn, h⟩ := bind_ok h
      split at h
      · cases h
      · obtain rfl := Option.some.inj (Except.ok.inj h)
        exact hg

theorem removeByKey_kept {s s' : Slab C} {x : Nat} {r : Option (LeafNode × C)} (hf : s.Fits)
    (h : s.removeByKey x = .ok (r, s')) : s.Kept s' ∧ ∀ l c, r = some (l, c) → l.Fits := by
  obtain ⟨h1, h2, h3, h4, h5, h6, h7, h8⟩ := hf.1
  unfold removeByKey at h
  split at h
  · obtain ⟨rfl, rfl⟩ := Prod.mk.inj (Except.ok.inj h)
    exact ⟨Kept.refl hf, fun _ _ h => by cases h⟩
  · obtain ⟨⟨o, g⟩, hst, h⟩ := bind_ok h
    have hg : g.child < 256 ^ 4 ∧ ∀ l, o = some l → l.Fits := by
      split at hst
      · obtain ⟨n, hn, hst⟩ := bind_ok hst
        obtain ⟨w, hw, hst⟩ := bind_ok hst
        obtain ⟨rfl, rfl⟩ := Prod.mk.inj (Except.ok.inj hst)
        exact ⟨walkDown_lt (forall_idx hf.2.2 hn) hw, fun _ h => by cases h⟩
      · obtain ⟨n, hn, hst⟩ := bind_ok hst
        obtain ⟨rfl, rfl⟩ := Prod.mk.inj (Except.ok.inj hst)
        refine ⟨show 0 < 256 ^ 4 by decide, fun l hl => ?_⟩
        split at hl
        · cases hl; exact forall_idx hf.2.1 hn
        · cases hl
    cases o with
    | some lc =>
      obtain ⟨s1, hs1, h⟩ := bind_ok h
      have hk := freeLeaf_kept hf h7 hs1
      obtain ⟨c, hc, h⟩ := bind_ok h
      obtain ⟨rfl, rfl⟩ := Prod.mk.inj (Except.ok.inj h)
      obtain ⟨g1, g2, g3, g4, g5, g6, g7, g8⟩ := hk.1.1
      refine ⟨hk.header ⟨g1, g2, g3, g4, g5, g6, show 0 < 256 ^ 4 by decide, show 0 < 256 ^ 4 by decide⟩, ?_⟩
      intro l c' e
      cases e; exact hg.2 _ rfl
    | none =>
      obtain ⟨stop, hstop, h⟩ := bind_ok h
      cases stop with
      | none =>
        obtain ⟨rfl, rfl⟩ := Prod.mk.inj (Except.ok.inj h)
        exact ⟨Kept.refl hf, fun _ _ h => by cases h⟩
      | some r =>
        have hr := removeWalk_lt hf hg.1 hstop
        obtain ⟨pn, hpn, h⟩ := bind_ok h
        obtain ⟨s1, hs1, h⟩ := bind_ok h
        have hk1 := relink_kept hf (child_lt (forall_idx hf.2.2 hpn) _) hs1
        obtain ⟨c, hc, h⟩ := bind_ok h
        obtain ⟨hc', rfl⟩ := subU_ok_iff.1 hc
        obtain ⟨g1, g2, g3, g4, g5, g6, g7, g8⟩ := hk1.1.1
        have hk2 := hk1.header (hd := { s1.header with leafCount := s1.header.leafCount - 1 })
          ⟨g1, g2, g3, g4, g5, g6, g7, Nat.lt_of_le_of_lt (Nat.sub_le _ _) g8⟩
        obtain ⟨rm, hrm, h⟩ := bind_ok h
        obtain ⟨s3, hs3, h⟩ := bind_ok h
        have hk3 := hk2.trans (freeLeaf_kept hk2.1 hr hs3)
        obtain ⟨s4, hs4, h⟩ := bind_ok h
        have hk4 := hk3.trans (freeInnerNode_kept hk3.1 hs4)
        obtain ⟨ci, hci, h⟩ := bind_ok h
        obtain ⟨rfl, rfl⟩ := Prod.mk.inj (Except.ok.inj h)
        refine ⟨hk4, ?_⟩
        intro l c' e
        cases e; exact forall_idx hk1.1.2.1 hrm

theorem setBaseQuantity_kept {s s' : Slab C} {k q : Nat} (hf : s.Fits) (hq : q < 256 ^ 8)
    (h : s.setBaseQuantity k q = .ok s') : s.Kept s' := by
  unfold setBaseQuantity at h
  obtain ⟨n, hn, h⟩ := bind_ok h
  obtain ⟨ls, hls, h⟩ := bind_ok h
  obtain rfl := Except.ok.inj h
  have := forall_setIdx hf.2.1 (x := { n with baseQuantity := q }) ⟨(forall_idx hf.2.1 hn).1, hq⟩ hls
  exact (Kept.refl hf).leaves this.1 this.2

theorem setCallbackInfo_kept {s s' : Slab C} {k : Nat} {c : C} (hf : s.Fits) (h : s.setCallbackInfo k c = .ok s') :
    s.Kept s' := by
  unfold setCallbackInfo at h
  obtain ⟨ls, hls, h⟩ := bind_ok h
  obtain rfl := Except.ok.inj h
  exact (Kept.refl hf).infos (length_setIdx hls)

end Slab

namespace EventQueue

/-- `q'` is still representable, with the same array sizes. -/
def Kept (q q' : EventQueue C) : Prop := q'.Fits ∧ q.SameShape q'

theorem Kept.refl {q : EventQueue C} (h : q.Fits) : q.Kept q := ⟨h, rfl, rfl⟩

theorem Kept.trans {a b c : EventQueue C} (h : a.Kept b) (g : b.Kept c) : a.Kept c :=
  ⟨g.1, g.2.1.trans h.2.1, g.2.2.trans h.2.2⟩

/-- The values of an event are within the ranges of its fields. -/
def _root_.AOB.AnyEvent.Fits : AnyEvent → Prop
  | .fill e => e.Fits
  | .out e => e.Fits

theorem toGeneric_fits {e : AnyEvent} (h : e.Fits) : e.toGeneric.Fits := by
  cases e with
  | fill e => exact ⟨show 0 < 256 ^ 1 by decide, h.2⟩
  | out e =>
    obtain ⟨h1, h2, h3, h4, h5⟩ := h
    refine ⟨show 1 < 256 ^ 1 by decide, h2, ?_, ?_, h4, h5⟩
    · show (e.padding.take 6).length = 6
      simp [h3]
    · show ofLE (e.padding.drop 6) < _
      refine Nat.lt_of_lt_of_le (ofLE_lt _) (Nat.pow_le_pow_right (by omega) ?_)
      simp [h3]

theorem storeInfo_length {xs ys : List C} {i : Nat} {o : Option C} (h : storeInfo xs i o = .ok ys) :
    ys.length = xs.length := by
  unfold storeInfo at h; split at h
  · exact length_setIdx h
  · obtain rfl := Except.ok.inj h; rfl

theorem push_kept {q q' : EventQueue C} {e : AnyEvent} {m t : Option C} (hf : q.Fits) (he : e.Fits)
    (h : q.push e m t = .ok q') : q.Kept q' := by
  obtain ⟨⟨h1, h2, h3⟩, h4⟩ := hf
  unfold push at h
  obtain ⟨r, hr, h⟩ := bind_ok h
  cases r with
  | refused _ => cases h
  | pushed q1 =>
    obtain rfl := Except.ok.inj h
    unfold pushBack at hr
    split at hr
    · cases hr
    · obtain ⟨a, _, hr⟩ := bind_ok hr
      obtain ⟨b, _, hr⟩ := bind_ok hr
      obtain ⟨es, hes, hr⟩ := bind_ok hr
      obtain ⟨c, hc, hr⟩ := bind_ok hr
      obtain ⟨hc', rfl⟩ := addU64_ok_iff.1 hc
      obtain ⟨i1, hi1, hr⟩ := bind_ok hr
      obtain ⟨i2, hi2, hr⟩ := bind_ok hr
      injection Except.ok.inj hr with hr
      subst hr
      rw [U64_eq] at hc'
      have := forall_setIdx h4 (toGeneric_fits he) hes
      exact ⟨⟨⟨h1, hc', h3⟩, this.1⟩, this.2, (storeInfo_length hi2).trans (storeInfo_length hi1)⟩

theorem genOrderId_kept {q q' : EventQueue C} {p id : Nat} {sd : Side} (hf : q.Fits) (hp : p < 256 ^ 8)
    (h : q.genOrderId p sd = .ok (id, q')) : q.Kept q' ∧ id < 256 ^ 16 := by
  unfold genOrderId genSeqNum at h
  obtain ⟨⟨sn, q1⟩, h1, h⟩ := bind_ok h
  obtain ⟨n, hn, h1⟩ := bind_ok h1
  obtain ⟨hn', rfl⟩ := addU64_ok_iff.1 hn
  obtain ⟨rfl, rfl⟩ := Prod.mk.inj (Except.ok.inj h1)
  obtain ⟨rfl, rfl⟩ := Prod.mk.inj (Except.ok.inj h)
  rw [U64_eq] at hn'
  refine ⟨⟨⟨⟨hf.1.1, hf.1.2.1, hn'⟩, hf.2⟩, rfl, rfl⟩, ?_⟩
  have e : (256 : Nat) ^ 16 = 2 ^ 128 := by decide
  have e8 : (256 : Nat) ^ 8 = 2 ^ 64 := by decide
  rw [e]
  apply Nat.or_lt_two_pow
  · rw [Nat.shiftLeft_eq]; rw [e8] at hp
    calc p * 2 ^ 64 < 2 ^ 64 * 2 ^ 64 := Nat.mul_lt_mul_of_pos_right hp (by decide)
      _ = 2 ^ 128 := by decide
  · have : U64 < 2 ^ 128 := by decide
    have hs := hf.1.2.2
    rw [← U64_eq] at hs
    cases sd <;> dsimp only <;> omega

theorem popN_kept {q q' : EventQueue C} {n : Nat} (hf : q.Fits) (h : q.popN n = .ok q') : q.Kept q' := by
  unfold popN at h
  obtain ⟨c, hc, h⟩ := bind_ok h
  obtain ⟨_, rfl⟩ := subU_ok_iff.1 hc
  obtain ⟨s, hs, h⟩ := bind_ok h
  obtain ⟨hs', rfl⟩ := addU64_ok_iff.1 hs
  obtain ⟨d, hd, h⟩ := bind_ok h
  obtain ⟨_, rfl⟩ := remU_ok_iff.1 hd
  obtain rfl := Except.ok.inj h
  rw [U64_eq] at hs'
  exact ⟨⟨⟨Nat.lt_of_le_of_lt (Nat.mod_le _ _) hs', Nat.lt_of_le_of_lt (Nat.sub_le _ _) hf.1.2.1, hf.1.2.2⟩, hf.2⟩,
    rfl, rfl⟩

end EventQueue

namespace OrderBook

/-- Both sides are representable. -/
def Fits (b : OrderBook C) : Prop := b.bids.Fits ∧ b.asks.Fits

def Kept (b b' : OrderBook C) : Prop := b.bids.Kept b'.bids ∧ b.asks.Kept b'.asks

theorem Kept.refl {b : OrderBook C} (h : b.Fits) : b.Kept b := ⟨Slab.Kept.refl h.1, Slab.Kept.refl h.2⟩

theorem Kept.trans {a b c : OrderBook C} (h : a.Kept b) (g : b.Kept c) : a.Kept c :=
  ⟨h.1.trans g.1, h.2.trans g.2⟩

theorem Kept.fits {b b' : OrderBook C} (h : b.Kept b') : b'.Fits := ⟨h.1.1, h.2.1⟩

theorem getTree_fits {b : OrderBook C} (h : b.Fits) (sd : Side) : (b.getTree sd).Fits := by
  cases sd
  · exact h.1
  · exact h.2

theorem setTree_kept {b : OrderBook C} (h : b.Fits) (sd : Side) {s : Slab C} (hs : (b.getTree sd).Kept s) :
    b.Kept (b.setTree sd s) := by
  cases sd
  · exact ⟨hs, Slab.Kept.refl h.2⟩
  · exact ⟨Slab.Kept.refl h.1, hs⟩

end OrderBook

theorem toU8_lt (sd : Side) : sd.toU8 < 256 ^ 1 := by cases sd <;> decide

variable [CallbackInfo C]

theorem matchLoop_kept (p : NewOrderParams C) (mb : Nat) (n : Nat) : ∀ {st st' : MatchState C},
    st.book.Fits → st.queue.Fits → st.baseRem < 256 ^ 8 → st.quoteRem < 256 ^ 8 → matchLoop p mb n st = .ok st' →
    st.book.Kept st'.book ∧ st.queue.Kept st'.queue ∧ st'.baseRem ≤ st.baseRem ∧ st'.quoteRem ≤ st.quoteRem := by
  induction n with
  | zero =>
    intro st st' hb hq h1 h2 h
    obtain rfl := Except.ok.inj h
    exact ⟨OrderBook.Kept.refl hb, EventQueue.Kept.refl hq, Nat.le_refl _, Nat.le_refl _⟩
  | succ n ih =>
    intro st st' hb hq h1 h2 h
    have hself : st.book.Kept st.book ∧ st.queue.Kept st.queue ∧ st.baseRem ≤ st.baseRem ∧ st.quoteRem ≤ st.quoteRem :=
      ⟨OrderBook.Kept.refl hb, EventQueue.Kept.refl hq, Nat.le_refl _, Nat.le_refl _⟩
    have hopp := OrderBook.getTree_fits hb p.side.opposite
    unfold matchLoop at h
    obtain ⟨bbo, hbbo, h⟩ := bind_ok h
    cases bbo with
    | none => obtain rfl := Except.ok.inj h; exact hself
    | some hd =>
      obtain ⟨bo, hbo, h⟩ := bind_ok h
      have hbof := forall_idx hopp.2.1 hbo
      dsimp only at h
      split at h
      · obtain rfl := Except.ok.inj h; exact hself
      split at h
      · obtain rfl := Except.ok.inj h; exact hself
      split at h
      · cases h
      rename_i quote hquote
      split at h
      · obtain rfl := Except.ok.inj h; exact hself
      obtain ⟨wst, hwst, h⟩ := bind_ok h
      split at h
      · split at h
        · cases h
        obtain ⟨c, hc, h⟩ := bind_ok h
        obtain ⟨q1, hq1, h⟩ := bind_ok h
        have hkq := EventQueue.push_kept hq (e := .out _)
          ⟨show 1 < 256 ^ 1 by decide, toU8_lt _, by simp, hbof.1, hbof.2⟩ hq1
        obtain ⟨⟨r, s1⟩, hr, h⟩ := bind_ok h
        have hks := (Slab.removeByKey_kept hopp hr).1
        obtain ⟨x, hx, h⟩ := bind_ok h
        have hkb := OrderBook.setTree_kept hb _ hks
        obtain ⟨i1, i2, i3, i4⟩ := ih (st := { st with book := _, queue := _, crossed := _ }) hkb.fits hkq.1 h1 h2 h
        exact ⟨hkb.trans i1, hkq.trans i2, i3, i4⟩
      · obtain ⟨c, hc, h⟩ := bind_ok h
        obtain ⟨q1, hq1, h⟩ := bind_ok h
        have hqlt : min quote st.quoteRem < 256 ^ 8 := Nat.lt_of_le_of_lt (Nat.min_le_right _ _) h2
        have hblt : ∀ x, min (min bo.baseQuantity st.baseRem) x < 256 ^ 8 := fun x =>
          Nat.lt_of_le_of_lt (Nat.le_trans (Nat.min_le_left _ _) (Nat.min_le_left _ _)) hbof.2
        have hkq := EventQueue.push_kept hq (e := .fill _)
          ⟨show 0 < 256 ^ 1 by decide, toU8_lt _, by simp, hqlt, hbof.1, hblt _⟩ hq1
        obtain ⟨left, hleft, h⟩ := bind_ok h
        obtain ⟨_, rfl⟩ := subU_ok_iff.1 hleft
        obtain ⟨s1, hs1, h⟩ := bind_ok h
        have hks := Slab.setBaseQuantity_kept hopp (Nat.lt_of_le_of_lt (Nat.sub_le _ _) hbof.2) hs1
        obtain ⟨br, hbr, h⟩ := bind_ok h
        obtain ⟨_, rfl⟩ := subU_ok_iff.1 hbr
        obtain ⟨qr, hqr, h⟩ := bind_ok h
        obtain ⟨_, rfl⟩ := subU_ok_iff.1 hqr
        have hb' := Nat.lt_of_le_of_lt (Nat.sub_le st.baseRem
          (min (min bo.baseQuantity st.baseRem) ((fp32Div st.quoteRem bo.price).getD u64Max))) h1
        have hq' := Nat.lt_of_le_of_lt (Nat.sub_le st.quoteRem (min quote st.quoteRem)) h2
        split at h
        · obtain ⟨⟨r, s2⟩, hr, h⟩ := bind_ok h
          have hks2 := hks.trans (Slab.removeByKey_kept hks.1 hr).1
          obtain ⟨⟨x, c2⟩, hx, h⟩ := bind_ok h
          obtain ⟨q2, hq2, h⟩ := bind_ok h
          have hkq2 := hkq.trans (EventQueue.push_kept hkq.1 (e := .out _)
            ⟨show 1 < 256 ^ 1 by decide, toU8_lt _, by simp, hbof.1, Nat.lt_of_le_of_lt (Nat.sub_le _ _) hbof.2⟩ hq2)
          have hkb := OrderBook.setTree_kept hb _ hks2
          obtain ⟨i1, i2, i3, i4⟩ := ih (st := MatchState.mk _ _ _ _ _) hkb.fits hkq2.1 hb' hq' h
          exact ⟨hkb.trans i1, hkq2.trans i2, Nat.le_trans i3 (Nat.sub_le _ _), Nat.le_trans i4 (Nat.sub_le _ _)⟩
        · have hkb := OrderBook.setTree_kept hb _ hks
          obtain ⟨i1, i2, i3, i4⟩ := ih (st := MatchState.mk _ _ _ _ _) hkb.fits hkq.1 hb' hq' h
          exact ⟨hkb.trans i1, hkq.trans i2, Nat.le_trans i3 (Nat.sub_le _ _), Nat.le_trans i4 (Nat.sub_le _ _)⟩

omit [CallbackInfo C] in
theorem unwrapInsert_ok {r : Res ((Nat × Option LeafNode) × Slab C)} {x : Nat × Slab C}
    (h : unwrapInsert r = .ok x) : ∃ o, r = .ok ((x.1, o), x.2) := by
  unfold unwrapInsert at h
  split at h
  · obtain rfl := Except.ok.inj h; exact ⟨_, rfl⟩
  · cases h
  · cases h

omit [CallbackInfo C] in
theorem postLeaf_kept {sd : Side} {lp : Nat} {s s' : Slab C} {q q' : EventQueue C} {l : LeafNode} {k : Nat}
    (hs : s.Fits) (hq : q.Fits) (hl : l.Fits) (h : postLeaf sd lp s q l = .ok (.posted k s' q')) :
    s.Kept s' ∧ q.Kept q' := by
  unfold postLeaf at h
  split at h
  · obtain ⟨cand, _, h⟩ := bind_ok h
    obtain ⟨cd, _, h⟩ := bind_ok h
    obtain ⟨cl, hcl, h⟩ := bind_ok h
    dsimp only at h
    split at h
    · obtain ⟨⟨r, s1⟩, hr, h⟩ := bind_ok h
      have hks := Slab.removeByKey_kept hs hr
      obtain ⟨⟨o, c⟩, ho, h⟩ := bind_ok h
      have hof := hks.2 o c (unwrap_ok_iff.1 ho)
      obtain ⟨q1, hq1, h⟩ := bind_ok h
      have hkq := EventQueue.push_kept hq (e := .out _)
        ⟨show 1 < 256 ^ 1 by decide, toU8_lt _, by simp, hof.1, hof.2⟩ hq1
      obtain ⟨⟨h2, s2⟩, hs2, h⟩ := bind_ok h
      obtain ⟨o2, hs2⟩ := unwrapInsert_ok hs2
      have hk2 := hks.1.trans (Slab.insertLeaf_kept hks.1.1 hl hs2)
      injection Except.ok.inj h with e1 e2 e3
      subst e2; subst e3
      exact ⟨hk2, hkq⟩
    · cases h
  · obtain ⟨⟨h2, s2⟩, hs2, h⟩ := bind_ok h
    obtain ⟨o2, hs2⟩ := unwrapInsert_ok hs2
    injection Except.ok.inj h with e1 e2 e3
    subst e2; subst e3
    exact ⟨Slab.insertLeaf_kept hs hl hs2, EventQueue.Kept.refl hq⟩

theorem newOrder_kept {b b' : OrderBook C} {q q' : EventQueue C} {p : NewOrderParams C} {mb : Nat} {sum : OrderSummary}
    (hb : b.Fits) (hq : q.Fits) (hp : p.Fits) (h : b.newOrder p q mb = .ok (sum, b', q')) :
    b.Kept b' ∧ q.Kept q' := by
  obtain ⟨p1, p2, p3, p4⟩ := hp
  unfold OrderBook.newOrder at h
  obtain ⟨st, hst, h⟩ := bind_ok h
  obtain ⟨k1, k2, k3, k4⟩ := matchLoop_kept p mb _ (st := MatchState.mk _ _ _ _ _) hb hq p1 p2 hst
  dsimp only at k1 k2 k3 k4 h
  split at h
  · obtain ⟨s, _, h⟩ := bind_ok h
    obtain ⟨_, e⟩ := Prod.mk.inj (Except.ok.inj h)
    obtain ⟨rfl, rfl⟩ := Prod.mk.inj e
    exact ⟨k1, k2⟩
  · obtain ⟨⟨id, q1⟩, hid, h⟩ := bind_ok h
    obtain ⟨hkq, hidlt⟩ := EventQueue.genOrderId_kept k2.1 p3 hid
    have hkq := k2.trans hkq
    obtain ⟨r, hr, h⟩ := bind_ok h
    cases r with
    | refused =>
      obtain ⟨s, _, h⟩ := bind_ok h
      obtain ⟨_, e⟩ := Prod.mk.inj (Except.ok.inj h)
      obtain ⟨rfl, rfl⟩ := Prod.mk.inj e
      exact ⟨k1, hkq⟩
    | posted hd s1 q2 =>
      have hlf : LeafNode.Fits ⟨id, min ((fp32Div st.quoteRem p.limitPrice).getD u64Max) st.baseRem⟩ :=
        ⟨hidlt, Nat.lt_of_le_of_lt (Nat.min_le_right _ _) (Nat.lt_of_le_of_lt k3 p1)⟩
      obtain ⟨g1, g2⟩ := postLeaf_kept (OrderBook.getTree_fits k1.fits _) hkq.1 hlf hr
      obtain ⟨s2, hs2, h⟩ := bind_ok h
      have g3 := g1.trans (Slab.setCallbackInfo_kept g1.1 hs2)
      obtain ⟨x1, _, h⟩ := bind_ok h
      split at h
      · cases h
      · obtain ⟨x2, _, h⟩ := bind_ok h
        obtain ⟨x3, _, h⟩ := bind_ok h
        obtain ⟨x4, _, h⟩ := bind_ok h
        obtain ⟨_, e⟩ := Prod.mk.inj (Except.ok.inj h)
        obtain ⟨rfl, rfl⟩ := Prod.mk.inj e
        exact ⟨k1.trans (OrderBook.setTree_kept k1.fits _ g3), hkq.trans g2⟩

omit [CallbackInfo C] in
theorem cancelIn_kept {b b' : OrderBook C} {id : Nat} {sum : OrderSummary} (hb : b.Fits)
    (h : Market.cancelIn b id = .ok (sum, b')) : b.Kept b' := by
  unfold Market.cancelIn at h
  obtain ⟨⟨r, s⟩, hr, h⟩ := bind_ok h
  have hk := (Slab.removeByKey_kept (OrderBook.getTree_fits hb _) hr).1
  cases r with
  | none => cases h
  | some x =>
    obtain ⟨l, c⟩ := x
    dsimp only at h
    split at h
    · cases h
    · obtain ⟨_, rfl⟩ := Prod.mk.inj (Except.ok.inj h)
      exact OrderBook.setTree_kept hb _ hk

omit [CallbackInfo C] in
theorem massCancelLoop_kept {ids : List Nat} : ∀ {b b' : OrderBook C} {x y x' y' : Nat}, b.Fits →
    Market.massCancelLoop ids x y b = .ok (x', y', b') → b.Kept b' := by
  induction ids with
  | nil =>
    intro b b' x y x' y' hb h
    obtain ⟨_, e⟩ := Prod.mk.inj (Except.ok.inj h)
    obtain ⟨_, rfl⟩ := Prod.mk.inj e
    exact OrderBook.Kept.refl hb
  | cons id ids ih =>
    intro b b' x y x' y' hb h
    unfold Market.massCancelLoop at h
    obtain ⟨⟨r, s⟩, hr, h⟩ := bind_ok h
    have hk := OrderBook.setTree_kept hb _ (Slab.removeByKey_kept (OrderBook.getTree_fits hb _) hr).1
    cases r with
    | none => cases h
    | some z =>
      obtain ⟨l, c⟩ := z
      obtain ⟨_, _, h⟩ := bind_ok h
      obtain ⟨_, _, h⟩ := bind_ok h
      obtain ⟨_, _, h⟩ := bind_ok h
      exact hk.trans (ih hk.fits h)

end AOB
