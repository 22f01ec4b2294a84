import Verif.Model.History
import Verif.Model.Einsum
import Verif.Lemmas.Basic

/-!
# C86: views share memory with their source

`view`, `reshape`, `squeeze`, `unsqueeze`, `transpose`, `T`, `diagonal`, slices, `broadcast_to` and `einsum_view`
never copy: whatever is written through the source or through any view of it is seen through all of them.
(The documentation also names `ravel`, which does not exist.)
-/

namespace Verif

variable {α : Type}

/-- The same array after its memory has been written to: `b` is what the memory holds now. -/
def Arr.holding (a : Arr α) (b : List α) : Arr α := { a with buf := b }

theorem res_bind_congr {β γ : Type} {x : Res β} {k k' : β → Res γ} (h : ∀ v, k v = k' v) : (x >>= k) = (x >>= k') := by
  rw [show k = k' from funext h]

theorem sliceResult_holding (a : Arr α) (b : List α) (s st : List Nat) (o : Nat) (c : Bool) :
    (a.holding b).sliceResult s st o c = (fun v : Arr α => v.holding b) <$> a.sliceResult s st o c := by
  unfold Arr.sliceResult
  rw [map_bind]
  rfl

/-- One operation. -/
theorem run_holding (a : Arr α) (b : List α) (op : ViewOp) :
    op.run (a.holding b) = (fun v : Arr α => v.holding b) <$> op.run a := by
  cases op with
  | view => rfl
  | squeeze => rfl
  | intoView => rfl
  | intoSqueeze => rfl
  | reshape s =>
    show ((a.holding b).reshapeLayout s >>= fun l => _) = (fun v : Arr α => v.holding b) <$> (a.reshapeLayout s >>= fun l => _)
    rw [map_bind]; rfl
  | intoReshape s =>
    show ((a.holding b).reshapeLayout s >>= fun l => _) = (fun v : Arr α => v.holding b) <$> (a.reshapeLayout s >>= fun l => _)
    rw [map_bind]; rfl
  | unsqueeze ax =>
    show ((a.holding b).unsqueezeLayout ax >>= fun l => _) = (fun v : Arr α => v.holding b) <$> (a.unsqueezeLayout ax >>= fun l => _)
    rw [map_bind]; rfl
  | intoUnsqueeze ax =>
    show ((a.holding b).unsqueezeLayout ax >>= fun l => _) = (fun v : Arr α => v.holding b) <$> (a.unsqueezeLayout ax >>= fun l => _)
    rw [map_bind]; rfl
  | transpose ax ax' =>
    show ((a.holding b).transposeLayout ax ax' >>= fun l => _) = (fun v : Arr α => v.holding b) <$> (a.transposeLayout ax ax' >>= fun l => _)
    rw [map_bind]; rfl
  | intoTranspose ax ax' =>
    show ((a.holding b).transposeLayout ax ax' >>= fun l => _) = (fun v : Arr α => v.holding b) <$> (a.transposeLayout ax ax' >>= fun l => _)
    rw [map_bind]; rfl
  | slice ixs =>
    show (sliceLoop ixs a.shape a.stride >>= fun r => (a.holding b).sliceResult _ _ _ _) =
      (fun v : Arr α => v.holding b) <$> (sliceLoop ixs a.shape a.stride >>= fun r => a.sliceResult _ _ _ _)
    rw [map_bind]
    exact res_bind_congr fun r => sliceResult_holding ..
  | sliceAlong ax ix =>
    show (asAbsolute ax a.ndims >>= fun k => _) = (fun v : Arr α => v.holding b) <$> (asAbsolute ax a.ndims >>= fun k => _)
    rw [map_bind]
    refine res_bind_congr fun k => ?_
    show (match a.shape[k]?, a.stride[k]? with | some n, some d => _ | _, _ => _) =
      (fun v : Arr α => v.holding b) <$> (match a.shape[k]?, a.stride[k]? with | some n, some d => _ | _, _ => _)
    cases a.shape[k]? <;> cases a.stride[k]? <;> try rfl
    dsimp only
    split
    · exact sliceResult_holding ..
    · rw [map_bind]
      exact res_bind_congr fun r => sliceResult_holding ..
  | broadcastTo s =>
    show (broadcastShape a.shape s >>= fun bs => broadcastStride a.stride bs a.shape >>= fun st => _) =
      (fun v : Arr α => v.holding b) <$> (broadcastShape a.shape s >>= fun bs => broadcastStride a.stride bs a.shape >>= fun st => _)
    rw [map_bind]
    refine res_bind_congr fun bs => ?_
    rw [map_bind]; rfl
  | diagonal o ax ax' =>
    show (assert (2 ≤ a.ndims) >>= fun _ => asAbsolute ax a.ndims >>= fun i => asAbsolute ax' a.ndims >>= fun j => assert (i ≠ j) >>= fun _ => _) =
      (fun v : Arr α => v.holding b) <$> (assert (2 ≤ a.ndims) >>= fun _ => asAbsolute ax a.ndims >>= fun i => asAbsolute ax' a.ndims >>= fun j => assert (i ≠ j) >>= fun _ => _)
    rw [map_bind]; refine res_bind_congr fun _ => ?_
    rw [map_bind]; refine res_bind_congr fun i => ?_
    rw [map_bind]; refine res_bind_congr fun j => ?_
    rw [map_bind]; refine res_bind_congr fun _ => ?_
    show (match a.shape[i]?, a.shape[j]?, a.stride[i]?, a.stride[j]? with | some n, some n', some d, some d' => _ | _, _, _, _ => _) =
      (fun v : Arr α => v.holding b) <$> (match a.shape[i]?, a.shape[j]?, a.stride[i]?, a.stride[j]? with | some n, some n', some d, some d' => _ | _, _, _, _ => _)
    cases a.shape[i]? <;> cases a.shape[j]? <;> cases a.stride[i]? <;> cases a.stride[j]? <;> try rfl
    dsimp only
    split
    · split <;> rfl
    · split <;> rfl

/-- **C86.** Taking views and writing to the memory commute: a view taken before a write shows what the same view of the
written source shows. For all sequences of view operations and all new contents of the memory; an operation that
panics does so before and after. -/
theorem C86_views_share (a : Arr α) (b : List α) (ops : List ViewOp) :
    runOps (a.holding b) ops = (fun v : Arr α => v.holding b) <$> runOps a ops := by
  induction ops generalizing a with
  | nil => rfl
  | cons op ops ih =>
    show (op.run (a.holding b) >>= fun c => runOps c ops) = (fun v : Arr α => v.holding b) <$> (op.run a >>= fun c => runOps c ops)
    rw [run_holding, bind_map_left, map_bind]
    exact res_bind_congr fun c => ih c

/-- A 2 x 3 matrix, its transpose and its first row. -/
def sixCells : Arr Nat := Arr.fromContiguousOwnedBuffer [2, 3] [1, 2, 3, 4, 5, 6]

example : runOps (sixCells.holding [1, 9, 3, 4, 5, 6]) [.transpose 0 1, .slice [.at 1]] =
    (fun v => v.holding [1, 9, 3, 4, 5, 6]) <$> runOps sixCells [.transpose 0 1, .slice [.at 1]] := C86_views_share _ _ _

/-- A view and its source have the same memory. -/
theorem C86_same_memory {a v : Arr α} {ops : List ViewOp} (h : runOps a ops = .ok v) : v.buf = a.buf := by
  have e : (fun u : Arr α => u.holding a.buf) <$> runOps a ops = runOps a ops := (C86_views_share a a.buf ops).symm
  rw [h] at e
  exact (congrArg Arr.buf (Except.ok.inj e)).symm

example : ∃ v, runOps sixCells [.transpose 0 1, .slice [.at 1]] = .ok v ∧ v.buf = sixCells.buf ∧ v.shape = [2] :=
  ⟨_, rfl, C86_same_memory (a := sixCells) (ops := [.transpose 0 1, .slice [.at 1]]) rfl, rfl⟩

/-- The cell of memory in which the element of `a` at an index lies. -/
def Arr.cellOf (a : Arr α) (idx : List Nat) : Nat := a.off + offset idx a.stride

/-- **C86.** An element written through one view is seen through every other view of the same source (and through the source
itself, `ops' = []`): the element in the same cell is the new one, all others are as before. -/
theorem C86_write_seen {a v w : Arr α} {ops ops' : List ViewOp} (hv : runOps a ops = .ok v) (hw : runOps a ops' = .ok w)
    {J : List Nat} {x : α} {b : List α} (hb : v.indexSet J x = .ok b) :
    ∃ w', runOps (a.holding b) ops' = .ok w' ∧ w'.shape = w.shape ∧ w'.stride = w.stride ∧
      ∀ K, w'.read (offset K w'.stride) = if w.cellOf K = v.cellOf J then .ok x else w.read (offset K w.stride) := by
  refine ⟨w.holding b, by rw [C86_views_share, hw]; rfl, rfl, rfl, fun K => ?_⟩
  obtain ⟨_, _, hb⟩ := bind_eq_ok.1 hb
  obtain ⟨_, _, hb⟩ := bind_eq_ok.1 hb
  split at hb
  · rename_i hin
    cases hb
    have e1 : v.buf = w.buf := (C86_same_memory hv).trans (C86_same_memory hw).symm
    rw [e1] at hin
    show (match (v.buf.set (v.off + offset J v.stride) x)[w.off + offset K w.stride]? with | some y => Except.ok y | none => Except.error Err.oob) = _
    unfold Arr.cellOf Arr.read
    rw [e1, List.getElem?_set]
    by_cases hc : v.off + offset J v.stride = w.off + offset K w.stride
    · rw [if_pos hc, if_pos hin, if_pos hc.symm]
    · rw [if_neg hc, if_neg fun h => hc h.symm]
      rfl
  · cases hb

/-- The element in column 1 of row 0, written through the transpose, is seen in the first row. -/
example : ∃ v w w' : Arr Nat, ∃ b, runOps sixCells [.transpose 0 1] = .ok v ∧ runOps sixCells [.slice [.at 0]] = .ok w ∧
    v.indexSet [1, 0] 9 = .ok b ∧ runOps (sixCells.holding b) [.slice [.at 0]] = .ok w' ∧ w'.read (offset [1] w'.stride) = .ok 9 := by
  obtain ⟨w', h, _, _, hr⟩ := C86_write_seen (a := sixCells) (ops := [.transpose 0 1]) (ops' := [.slice [.at 0]]) (J := [1, 0]) (x := 9)
    rfl rfl rfl
  exact ⟨_, _, w', _, rfl, rfl, rfl, h, (hr [1]).trans (if_pos rfl)⟩

/-- **C86.** `einsum_view` does not copy either. -/
theorem C86_einsum_view (a : Arr α) (b : List α) (subs out : List Char) :
    (a.holding b).einsumView subs out = Option.map (fun v => v.holding b) <$> a.einsumView subs out := by
  unfold Arr.einsumView
  simp only [map_bind]
  refine res_bind_congr fun p => ?_
  refine res_bind_congr fun q => ?_
  refine res_bind_congr fun _ => ?_
  refine res_bind_congr fun r => ?_
  cases r <;> rfl

example : (sixCells.holding [1, 9, 3, 4, 5, 6]).einsumView "ij".toList "ji".toList =
    Option.map (fun v => v.holding [1, 9, 3, 4, 5, 6]) <$> sixCells.einsumView "ij".toList "ji".toList := C86_einsum_view _ _ _ _

end Verif
