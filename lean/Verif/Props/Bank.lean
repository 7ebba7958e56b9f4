import Verif.Proofs.Bank
/-! # C46: bulk transfers -/
namespace Verif.Props
open Verif.Dex Verif.Spec

/-- The bulk operation obtained by queueing the transfers one after the other (x/dex/types/util.go:36-47). -/
def queued (ts : List SendTx) : BulkOp := ts.foldl (fun op t => op.queue t.src t.dst t.amt) []

/-- **C46** A successful bulk send changes every balance by exactly the sum of the queued transfers and leaves the supply
unchanged. -/
theorem C46_bulk_send_balances (ts : List SendTx) (b b' : Bank) (h : (queued ts).run b = some b') :
    (∀ a d, b'.bal a d = b.bal a d + (ts.map (fun t => transferEffect t a d)).sum) ∧ b'.supply = b.supply := by
  obtain ⟨h1, h2, _⟩ := run_some h
  refine ⟨?_, h1⟩
  intro a d
  rw [h2]
  have := queueAll_effect ts [] a d
  simp only [queueAll, totalEffect, List.map_nil, List.sum_nil, zero_add] at this
  simp only [totalEffect, queued, this]

/-- **C46** Grouping by (from, to) does not change the result: if the bulk operation and the plain sequence of transfers both
succeed, they lead to the same bank. -/
theorem C46_grouping_irrelevant (ts : List SendTx) (b b1 b2 : Bank) (h1 : (queued ts).run b = some b1)
    (h2 : sendAll ts b = some b2) : b1 = b2 := by
  obtain ⟨g1, g2⟩ := C46_bulk_send_balances ts b b1 h1
  obtain ⟨k1, k2, _⟩ := sendAll_some h2
  refine Bank.ext' ?_ (g2.trans k1.symm)
  intro a d
  rw [g1, k2]; rfl

/-- **C46** If no account both pays and receives in the queue, the bulk operation succeeds whenever the plain sequence
does. -/
theorem C46_grouping_succeeds (ts : List SendTx) (b b' : Bank) (hb : NonNegative b)
    (hd : ∀ t ∈ ts, ∀ u ∈ ts, t.dst ≠ u.src) (h : sendAll ts b = some b') : (queued ts).run b = some b' := by
  obtain ⟨_, k2, k3⟩ := sendAll_some h
  have hn : NonNegative b' := by
    rw [← run_eq_sendAll] at h
    exact run_nonneg hb h
  obtain ⟨b1, hb1⟩ : ∃ b1, sendAll (queueAll ts []) b = some b1 := by
    apply sendAll_isSome (queueAll_nonneg ts [] (by simp) k3)
    rintro a d ⟨t, ht, rfl⟩
    rcases queueAll_src ts [] t ht with ⟨u, hu, _⟩ | ⟨u, hu, e⟩
    · cases hu
    · rw [queueAll_outflow]
      have h1 := k2 u.src d
      rw [totalEffect_src (fun v hv => hd v hv u hu)] at h1
      have h2 := hn u.src d
      rw [← e]
      simp only [outflow, List.map_nil, List.sum_nil, zero_add] at h1 ⊢
      omega
  rw [← run_eq_sendAll] at hb1
  have hq : (queued ts).run b = some b1 := hb1
  rw [hq, C46_grouping_irrelevant ts b b1 b' hq h]

/-- Non-vacuity of C46: three transfers, two of which are grouped. -/
example :
    let b : Bank := ⟨fun a _ => if a = .pairEscrow 1 then 100 else 0, fun _ => 100⟩
    let ts : List SendTx := [⟨.pairEscrow 1, .user 1, [⟨.native 0, 10⟩]⟩, ⟨.pairEscrow 1, .user 2, [⟨.native 0, 20⟩]⟩,
      ⟨.pairEscrow 1, .user 1, [⟨.native 0, 5⟩]⟩]
    (queued ts).length = 2 ∧ ((queued ts).run b).map (fun b => (b.bal (.user 1) (.native 0), b.bal (.pairEscrow 1) (.native 0)))
      = some (15, 65) := by decide

end Verif.Props
