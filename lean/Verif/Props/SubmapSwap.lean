import Verif.Proofs.SubmapSwap
/-! Property theorem C31 (swapped-out submaps still give their points). -/
namespace Verif
open Spec

/-- C31, points: over every history of building submaps, matching, memory-manager ticks and accesses
that does not stop, asking any submap or frame that was built for its cloud succeeds and gives
exactly the cloud it was built with, although all of them share one directory.
Missing: file name prefixes beginning with `f_` (see C32), and handles (`C31_handle_fails`). -/
theorem C31_points_partial (maxPoints : Nat) (cfg : SwapCfg) (hp : ¬ ['f', '_'] <+: cfg.pre)
    (es : List SwapEv) (hs : SmallBuilds maxPoints es) (st : SwapState)
    (hrun : SwapState.init.run maxPoints cfg es = .ok st)
    (k : CloudKey) (c : BitsCloud) (hk : builtBy es k = some c) :
    ∃ (st' : SwapState) (h : Holder), st.step maxPoints cfg (.access k) = .ok st' ∧
      st'.holder k = some h ∧ h.inMemory = true ∧ h.inner = c := by
  obtain ⟨⟨saved, hst, -⟩, -⟩ := swapInv_run hp es _ _ st hs swapInv_init hrun
  obtain ⟨hsm, hh, e, hr, -⟩ := hst.some' k c hk
  obtain ⟨r, h1, -, -, -, h5, h6⟩ := mem_ok hr hsm
  simp only [SwapState.step, SwapState.apply]
  cases k with
  | submap id =>
    simp only [e, h1, Outcome.bind_ok]
    exact ⟨_, r.1, rfl, by simp, h5, h6⟩
  | frame f =>
    simp only [e, h1, Outcome.bind_ok]
    exact ⟨_, r.1, rfl, by simp, h5, h6⟩

/-- C31, when: a tick swaps a submap out only if disk saving is on, the submap has been matched
(and thereby saved), and the ticks since some point after its last access add up to more than the
configured delay. -/
theorem C31_only_when_idle (maxPoints : Nat) (cfg : SwapCfg) (es : List SwapEv)
    (st st' : SwapState) (hrun : SwapState.init.run maxPoints cfg es = .ok st)
    (id : SubmapId) (sec : Int) (hstep : st.step maxPoints cfg (.tick id sec) = .ok st')
    (k : CloudKey) (h h' : Holder) (hk : st.holder k = some h) (hk' : st'.holder k = some h')
    (hin : h.inMemory = true) (hout : h'.inMemory = false) :
    k = .submap id ∧ cfg.disk = true ∧ .matched id ∈ es ∧
    ∃ es1 es2, es = es1 ++ es2 ∧ (∀ e ∈ es2, e ≠ .access (.submap id)) ∧
      cfg.delay < tickSum id es2 + sec := by
  have hi := idle_run (id := id) es [] _ st idle_init hrun
  simp only [List.nil_append] at hi
  simp only [SwapState.step] at hstep
  have hsame : st'.holder = st.holder → False := by
    intro hs
    rw [hs, hk] at hk'
    cases hk'
    rw [hin] at hout; cases hout
  split at hstep
  · rename_i hc
    split at hstep
    · rename_i hd
      obtain ⟨es1, es2, e1, e2, e3⟩ := hi.idle
      refine ⟨?_, hc.1, hi.got hc.2, es1, es2, e1, e2, by rw [← e3]; exact hd⟩
      by_contra hne
      unfold SwapState.apply at hstep
      split at hstep
      · cases hstep
        exact hsame rfl
      · rw [Outcome.bind_eq_ok] at hstep
        obtain ⟨r, -, h2⟩ := hstep
        simp only [Outcome.pure_eq, Outcome.ok.injEq] at h2
        rw [← h2] at hk'
        simp only [hne, ↓reduceIte, hk, Option.some.injEq] at hk'
        subst hk'
        rw [hin] at hout; cases hout
    · cases hstep
      exact (hsame rfl).elim
  · cases hstep
    exact (hsame rfl).elim

/-! A concrete history: two submaps, saved, swapped out and read back. -/

def exPoint (n : UInt32) : BitsPoint := ⟨n, 0, 0, 0, 0⟩
def exCloud (n : UInt32) : BitsCloud := ⟨⟨1, 2, 1⟩, [exPoint n]⟩
def exCfg : SwapCfg := ⟨true, 10, "submap_".toList, "/tmp/".toList⟩
def exHist : List SwapEv :=
  [.build ⟨0, 0⟩ (exCloud 1) [exCloud 2, exCloud 3], .build ⟨0, 1⟩ (exCloud 4) [exCloud 5],
   .matched ⟨0, 0⟩, .access (.submap ⟨0, 0⟩), .tick ⟨0, 0⟩ 6, .tick ⟨0, 0⟩ 5]

/-- Points in memory of a submap or frame after a history (`none`: no such cloud or stopped). -/
def pointsNow (es : List SwapEv) (k : CloudKey) : Option Nat :=
  match SwapState.init.run 100 exCfg es with
  | .ok st => (st.holder k).map (fun h => h.inner.points.length)
  | _ => none

example : builtBy exHist (.submap ⟨0, 0⟩) = some (exCloud 1) ∧
    builtBy exHist (.frame ⟨0, 0, 1⟩) = some (exCloud 3) ∧ SmallBuilds 100 exHist := by
  refine ⟨by decide, by decide, ?_⟩
  intro id c fs hm d hd
  simp only [exHist, List.mem_cons, SwapEv.build.injEq, reduceCtorEq, List.not_mem_nil, or_false,
    false_or] at hm
  rcases hm with ⟨-, rfl, rfl⟩ | ⟨-, rfl, rfl⟩ <;> simp at hd <;>
    (first | (rcases hd with rfl | rfl | rfl <;> decide) | (rcases hd with rfl | rfl <;> decide))

/-- The history runs, and the first submap and its frames have been swapped out at its end. -/
example : pointsNow exHist (.submap ⟨0, 0⟩) = some 0 ∧ pointsNow exHist (.frame ⟨0, 0, 1⟩) = some 0 ∧
    pointsNow exHist (.submap ⟨0, 1⟩) = some 1 := by decide +kernel

/-- C31, handles: false.  The submap hands out the holder itself, so a caller who keeps the handle
finds it empty once the memory manager has swapped the submap out. -/
theorem C31_handle_fails :
    pointsNow (exHist.take 4) (.submap ⟨0, 0⟩) = some 1 ∧
    pointsNow exHist (.submap ⟨0, 0⟩) = some 0 := by decide +kernel

end Verif
