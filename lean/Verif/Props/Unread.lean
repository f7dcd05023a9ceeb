import Verif.Lemmas.Parallel
/-
C56: what happens to the receipts read before an exception of the parser.
-/
namespace RKSV

/-- C56: if the parser fails, only full batches of what was read before are worked on; the rest is dropped. -/
theorem batches_failing {α : Type} {nprocs : Nat} (hn : nprocs ≠ 0) (l : List α) :
    (batchesAux nprocs true [] l).flatten = l.take (l.length / nprocs * nprocs) ∧
      ∀ b ∈ batchesAux nprocs true [] l, b.length = nprocs := by
  have key : ∀ (l acc : List α), acc.length < nprocs →
      (batchesAux nprocs true acc l).flatten = (acc ++ l).take ((acc ++ l).length / nprocs * nprocs) ∧
        ∀ b ∈ batchesAux nprocs true acc l, b.length = nprocs := by
    intro l
    induction l with
    | nil =>
      intro acc ha
      unfold batchesAux
      rw [if_pos (.inr rfl), List.append_nil, Nat.div_eq_of_lt ha]
      simp
    | cons x l ih =>
      intro acc ha
      unfold batchesAux
      split
      · rename_i h
        have h' : nprocs ≤ (acc ++ [x]).length := by exact_mod_cast h
        have hlen : (acc ++ [x]).length = nprocs := by
          rw [List.length_append, List.length_singleton] at h' ⊢
          omega
        obtain ⟨h1, h2⟩ := ih [] (Nat.pos_of_ne_zero hn)
        constructor
        · have hd : (acc ++ x :: l).length / nprocs * nprocs = nprocs + l.length / nprocs * nprocs := by
            rw [show acc ++ x :: l = (acc ++ [x]) ++ l by simp, List.length_append, hlen,
              Nat.add_div_left _ (Nat.pos_of_ne_zero hn), Nat.succ_mul, Nat.add_comm]
          have ht : (acc ++ x :: l).take (nprocs + l.length / nprocs * nprocs) =
              (acc ++ [x]) ++ l.take (l.length / nprocs * nprocs) := by
            rw [show acc ++ x :: l = (acc ++ [x]) ++ l by simp]
            generalize acc ++ [x] = u at hlen
            subst hlen
            exact List.take_length_add_append _
          rw [List.flatten_cons, h1, List.nil_append, hd, ht]
        · intro b hb
          rcases List.mem_cons.mp hb with rfl | hb
          · exact hlen
          · exact h2 b hb
      · rename_i h
        have h' : ¬nprocs ≤ (acc ++ [x]).length := by exact_mod_cast h
        have := ih (acc ++ [x]) (by omega)
        simpa [List.append_assoc] using this
  simpa using key l [] (Nat.pos_of_ne_zero hn)

variable [PyEnv]

/-- C56: if the parser fails before it has read as many chunks as there are processes, its exception is reported,
whatever the receipts in these chunks are, and the state is as it was. -/
theorem unreadable_reported (w : Workers) {nprocs : Nat} (ks : KeyStore) (key : Option Bytes) {c c' : Cluster}
    {idx : Option Int} {dep : Stream} {e : Err} {info : Option Str × RegState × Used} (hc : c.getInfo idx = (c', .ok info))
    (he : dep.err = some e) (hl : dep.chunks.length < nprocs) :
    verifyParsedDEP w nprocs ks key c idx dep = (c', .error e) := by
  obtain ⟨ps, s, used⟩ := info
  have hb : batchesAux (nprocs : Int) true [] dep.chunks = [] := by
    have h := batches_failing (nprocs := nprocs) (by omega) dep.chunks
    rw [Nat.div_eq_of_lt hl, Nat.zero_mul, List.take_zero] at h
    rw [List.eq_nil_iff_forall_not_mem]
    intro b hb
    have h0 := List.flatten_eq_nil_iff.mp h.1 b hb
    have := h.2 b hb
    rw [h0] at this
    simp at this
    omega
  unfold verifyParsedDEP
  rw [hc]
  simp only [he, Option.isSome_some, hb, runBatches]

/-- Two chunks for three processes, then an exception. -/
example (a b : Chunk) : ∃ dep : Stream, dep.err = some .malformedDEP ∧ dep.chunks = [a, b] ∧ dep.chunks.length < 3 :=
  ⟨⟨[a, b], some .malformedDEP⟩, rfl, rfl, by simp⟩

end RKSV
