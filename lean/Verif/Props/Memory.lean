import Verif.Proofs.Memory
import Verif.Model.Memory
import Verif.Props.Gps
import Verif.Props.SubmapSwap
import Mathlib.Data.List.Perm.Subperm
/-! C129: with disk saving, memory for clouds stays bounded. -/
namespace Verif
open Spec

variable {maxPoints : Nat} {cfg : SwapCfg}

/-- C129, submaps: over every history of building, matching, accesses and ticks of the memory manager, a submap that
has been matched (and thereby saved) and then not asked for while more than the configured delay has passed is not in
memory. -/
theorem C129_submaps (hd : cfg.disk = true) (h0 : 0 ≤ cfg.delay) {id : SubmapId} {es1 es2 : List SwapEv} {st : SwapState}
    (hrun : SwapState.init.run maxPoints cfg (es1 ++ es2) = .ok st) (ht : TicksForward (es1 ++ es2))
    (hs : SavedIn es1 id) (hn : ∀ e ∈ es2, e ≠ .access (.submap id)) (hlong : cfg.delay < tickSum id es2) :
    ¬ InMemory st (.submap id) := by
  rintro ⟨h, hk, hm⟩
  obtain ⟨hh, hk', hm'⟩ := (saved_rest hd h0 hrun ht hs hn).held
  rw [hk] at hk'
  cases hk'
  rw [hm' hlong] at hm
  cases hm

/-- C129, frames: the clouds of the frames of a submap leave memory when it is matched and do not come back unless
they are asked for. -/
theorem C129_frames (hd : cfg.disk = true) {id : SubmapId} {c : BitsCloud} {fs : List BitsCloud} {es1 es2 : List SwapEv}
    {st : SwapState} (hrun : SwapState.init.run maxPoints cfg (es1 ++ .matched id :: es2) = .ok st)
    (hb : .build id c fs ∈ es1) {i : Int} (hn : ∀ e ∈ es2, e ≠ .access (.frame ⟨id.trajectory, id.submap, i⟩)) :
    ¬ InMemory st (.frame ⟨id.trajectory, id.submap, i⟩) := by
  rintro ⟨h, hk, hm⟩
  have hfi := run_framesIn _ _ st (fun f hf => by cases hf) hrun
  obtain ⟨-, n, hin, -⟩ := hfi ⟨id.trajectory, id.submap, i⟩ (by rw [hk]; rfl)
  have hin : i = n := hin
  subst hin
  obtain ⟨s1, h1, h2⟩ := swapRun_append es1 _ _ st hrun
  change (s1.step maxPoints cfg (.matched id) >>= fun s => s.run maxPoints cfg es2) = _ at h2
  obtain ⟨s2, h3, h4⟩ := (Outcome.bind_eq_ok _ _ _).mp h2
  have hx1 := run_built hb h1
  have hf1 := run_framesIn es1 _ s1 (fun f hf => by cases hf) h1
  have hx2 := step_exists hx1 h3
  -- after matching
  have hout : ∀ hh, s2.holder (fkey id n) = some hh → hh.inMemory = false := by
    obtain ⟨g1, hx1'⟩ := Option.isSome_iff_exists.1 hx1
    have hf2 := framesIn_step _ hf1 h3
    intro hh hk2
    obtain ⟨-, m, hm1, hm2⟩ := hf2 ⟨id.trajectory, id.submap, n⟩ (by rw [show s2.holder (.frame ⟨id.trajectory, id.submap, n⟩) = some hh from hk2]; rfl)
    have hm1 : (n : Int) = m := hm1
    have hnm : n = m := by exact_mod_cast hm1
    subst hnm
    simp only [SwapState.step, hx1'] at h3
    rw [Outcome.check_bind_eq_ok] at h3
    obtain ⟨-, h3⟩ := h3
    obtain ⟨t1, h5, h6⟩ := (Outcome.bind_eq_ok _ _ _).mp h3
    simp only [Outcome.pure_eq, Outcome.ok.injEq] at h6
    subst h6
    rw [if_pos hd] at h5
    obtain ⟨t0, h7, h8⟩ := (Outcome.bind_eq_ok _ _ _).mp h5
    have hc : t1.count = s1.count := (saveFrames_other id _ t0 t1 h8).2.2.trans (apply_other (k' := .submap id) h7).2.2
    refine saveFrames_out id _ t0 t1 h8 List.nodup_range n (List.mem_range.2 ?_) hh hk2
    have hm2 : n < t1.count id := hm2
    rw [hc] at hm2
    exact hm2
  have hg2 : s2.got id = true := by
    obtain ⟨g1, hx1'⟩ := Option.isSome_iff_exists.1 hx1
    simp only [SwapState.step, hx1'] at h3
    rw [Outcome.check_bind_eq_ok] at h3
    obtain ⟨-, h3⟩ := h3
    obtain ⟨t1, h5, h6⟩ := (Outcome.bind_eq_ok _ _ _).mp h3
    simp only [Outcome.pure_eq, Outcome.ok.injEq] at h6
    subst h6
    simp
  have keep : ∀ (l : List SwapEv) (s s' : SwapState), (s.holder (.submap id)).isSome = true → s.got id = true →
      s.run maxPoints cfg l = .ok s' → (∀ e ∈ l, e ≠ .access (fkey id n)) → s'.holder (fkey id n) = s.holder (fkey id n) := by
    intro l
    induction l with
    | nil => intro s s' _ _ h _; cases h; rfl
    | cons e l ih =>
      intro s s' hx hg h hnl
      change (s.step maxPoints cfg e >>= fun s => s.run maxPoints cfg l) = _ at h
      obtain ⟨t, h7, h8⟩ := (Outcome.bind_eq_ok _ _ _).mp h
      rw [ih t s' (step_exists hx h7) (step_got hx hg h7) h8 (fun x hx => hnl x (List.mem_cons_of_mem _ hx))]
      exact step_frame hx hg h7 (hnl e (List.mem_cons_self ..))
  have hfin := keep es2 s2 st hx2 hg2 h4 hn
  have hk' : st.holder (fkey id n) = some h := hk
  rw [hfin] at hk'
  rw [hout h hk'] at hm
  cases hm

theorem holder_built : ∀ (es : List SwapEv) (st st' : SwapState) (id : SubmapId), st.run maxPoints cfg es = .ok st' →
    (st'.holder (.submap id)).isSome = true → (st.holder (.submap id)).isSome = true ∨ ∃ c fs, .build id c fs ∈ es
  | [], st, st', id, h, hk => by cases h; exact Or.inl hk
  | e :: es, st, st', id, h, hk => by
    change (st.step maxPoints cfg e >>= fun s => s.run maxPoints cfg es) = _ at h
    obtain ⟨s1, h1, h2⟩ := (Outcome.bind_eq_ok _ _ _).mp h
    rcases holder_built es s1 st' id h2 hk with h3 | ⟨c, fs, h3⟩
    · cases e with
      | build j c fs =>
        by_cases hj : j = id
        · exact Or.inr ⟨c, fs, by rw [hj]; exact List.mem_cons_self ..⟩
        · left
          simp only [SwapState.step] at h1
          split at h1
          · cases h1; exact h3
          · obtain ⟨t1, h5, h⟩ := (Outcome.bind_eq_ok _ _ _).mp h1
            obtain ⟨t2, h6, h⟩ := (Outcome.bind_eq_ok _ _ _).mp h
            simp only [Outcome.pure_eq, Outcome.ok.injEq] at h
            subst h
            have h3 : (t2.holder (.submap id)).isSome = true := h3
            rw [(create_other h6).1 _ (by simpa using fun e => hj e.symm), (createFrames_other j fs 0 st t1 h5).1 _ (by intro i _ _ e; simp [fkey] at e)] at h3
            exact h3
      | matched j =>
        left
        simp only [SwapState.step] at h1
        split at h1
        · cases h1; exact h3
        · rw [Outcome.check_bind_eq_ok] at h1
          obtain ⟨-, h1⟩ := h1
          obtain ⟨t1, h4, h5⟩ := (Outcome.bind_eq_ok _ _ _).mp h1
          simp only [Outcome.pure_eq, Outcome.ok.injEq] at h5
          subst h5
          have h3 : (t1.holder (.submap id)).isSome = true := h3
          split at h4
          · obtain ⟨s0, h0, h4⟩ := (Outcome.bind_eq_ok _ _ _).mp h4
            rw [(saveFrames_other j _ s0 t1 h4).2.1, (apply_other h0).2.1] at h3
            exact h3
          · cases h4; exact h3
      | tick j s =>
        left
        simp only [SwapState.step] at h1
        split at h1
        · split at h1
          · rw [(apply_other h1).2.1] at h3; exact h3
          · cases h1; exact h3
        · cases h1; exact h3
      | access k =>
        left
        simp only [SwapState.step] at h1
        rw [(apply_other h1).2.1] at h3
        cases k <;> exact h3
    · exact Or.inr ⟨c, fs, List.mem_cons_of_mem _ h3⟩

/-- C129, how many: split a history so that in its second part more than the delay passes.  At most as many submap
clouds are in memory at its end as there are submaps that were not yet saved in the first part or are asked for in the
second (`busy`); the length of the first part does not matter. -/
theorem C129_bound (hd : cfg.disk = true) (h0 : 0 ≤ cfg.delay) {es1 es2 : List SwapEv} {st : SwapState}
    (hrun : SwapState.init.run maxPoints cfg (es1 ++ es2) = .ok st) (ht : TicksForward (es1 ++ es2))
    (busy : List SubmapId)
    (hrest : ∀ id c fs, .build id c fs ∈ es1 ++ es2 → id ∉ busy →
      SavedIn es1 id ∧ (∀ e ∈ es2, e ≠ .access (.submap id)) ∧ cfg.delay < tickSum id es2)
    (l : List SubmapId) (hl : l.Nodup) (hmem : ∀ id ∈ l, InMemory st (.submap id)) : l.length ≤ busy.length := by
  refine (List.subperm_of_subset hl fun id hid => ?_).length_le
  by_contra hb
  obtain ⟨h, hk, -⟩ := hmem id hid
  rcases holder_built _ _ st id hrun (by rw [hk]; rfl) with h1 | ⟨c, fs, h1⟩
  · cases h1
  · obtain ⟨r1, r2, r3⟩ := hrest id c fs h1 hb
    exact C129_submaps hd h0 hrun ht r1 r2 r3 (hmem id hid)

/-- Is a cloud in memory after a history? -/
def heldNow (es : List SwapEv) (k : CloudKey) : Option Bool :=
  match SwapState.init.run 100 exCfg es with
  | .ok st => (st.holder k).map (fun h => h.inMemory)
  | _ => none

-- the first submap is saved and then left alone for 11 seconds; its frames went when it was matched; the second,
-- never matched, stays
example : heldNow (exHist.take 4) (.submap ⟨0, 0⟩) = some true ∧ heldNow exHist (.submap ⟨0, 0⟩) = some false ∧
    heldNow (exHist.take 3) (.frame ⟨0, 0, 1⟩) = some false ∧ heldNow exHist (.submap ⟨0, 1⟩) = some true := by decide +kernel
example : SavedIn (exHist.take 4) ⟨0, 0⟩ ∧ TicksForward exHist ∧ exCfg.delay < tickSum ⟨0, 0⟩ (exHist.drop 4) ∧
    (∀ e ∈ exHist.drop 4, e ≠ .access (.submap ⟨0, 0⟩)) := by
  refine ⟨⟨exHist.take 2, [.access (.submap ⟨0, 0⟩)], exCloud 1, [exCloud 2, exCloud 3], rfl, by simp [exHist]⟩, ?_, by decide, ?_⟩
  · intro id s h
    simp only [exHist, List.mem_cons, reduceCtorEq, SwapEv.tick.injEq, List.not_mem_nil, or_false, false_or] at h
    rcases h with h | h <;> omega
  · intro e he
    simp only [exHist, List.drop_succ_cons, List.drop_zero, List.mem_cons, List.not_mem_nil, or_false] at he
    rcases he with rfl | rfl <;> simp

/-- The history of `C129_bound`: one submap at rest, one busy. -/
example : ∀ id c fs, SwapEv.build id c fs ∈ exHist.take 4 ++ exHist.drop 4 → id ∉ [(⟨0, 1⟩ : SubmapId)] → id = ⟨0, 0⟩ := by
  intro id c fs h hb
  simp only [exHist, List.take_append_drop, List.mem_cons, SwapEv.build.injEq, reduceCtorEq, List.not_mem_nil, or_false] at h
  rcases h with h | h
  · exact h.1
  · simp [h.1] at hb

/-- C129 is false for frames: a frame of a saved submap that is asked for comes back into memory and nothing takes it
out again, however long it is left alone. -/
theorem C129_frame_access_fails :
    heldNow (exHist ++ [.access (.frame ⟨0, 0, 1⟩), .tick ⟨0, 0⟩ 100000, .tick ⟨0, 1⟩ 100000]) (.frame ⟨0, 0, 1⟩) = some true := by
  decide +kernel

/-- C129 is false without disk saving: nothing leaves memory. -/
theorem C129_no_disk_fails : (match SwapState.init.run 100 { exCfg with disk := false } (exHist ++ [.tick ⟨0, 0⟩ 100000]) with
    | .ok st => (st.holder (.submap ⟨0, 0⟩)).map (fun h => h.inMemory)
    | _ => none) = some true := by decide +kernel

/-! ### sensor messages -/

/-- C129, GPS: after a submap has asked for the position at a time between the first and the last stored reading, one
reading before that time is left at most; all others are not older. -/
theorem C129_gps (l : List GpsData) (t : SimpleTime) (th : Rat) (r : Option (Vec3 Rat)) (kept : List GpsData)
    (first last : GpsData) (h2 : 2 ≤ l.length) (hord : TimeOrdered (l.map GpsData.time)) (hfirst : l.head? = some first)
    (hlast : l.getLast? = some last) (hf : ns first.time ≤ ns t) (hl : ns t ≤ ns last.time)
    (h : interpolateGps l t th true = .ok (r, kept)) : ∃ d rest, kept = d :: rest ∧ ∀ x ∈ rest, ns t ≤ ns x.time := by
  obtain ⟨i, e1, e2, -, e4⟩ := C04_search_splits (l.map GpsData.time) t first.time last.time (by simpa using h2) hord
    (by rw [List.head?_map, hfirst]; rfl) (by rw [List.getLast?_map, hlast]; rfl) hf hl
  rw [List.length_map] at e2
  have hkept : kept = l.drop i := by
    match l, h2, hfirst, hlast, h, e1, e2 with
    | a :: b :: rest, _, hfirst, hlast, h, e1, e2 =>
      unfold interpolateGps at h
      rw [Outcome.check_bind_eq_ok] at h
      obtain ⟨-, h⟩ := h
      dsimp only at h
      unfold gpsMany at h
      split at h
      · rename_i hc
        cases hfirst
        have hb : (b :: rest).getLast (by simp) = last := by
          rw [List.getLast?_cons_cons, List.getLast?_eq_getLast_of_ne_nil (by simp)] at hlast
          exact Option.some.inj hlast
        rw [hb, Bool.or_eq_true] at hc
        rcases hc with hc | hc
        · have := (lt_iff _ _).1 hc
          omega
        · have := (lt_iff _ _).1 hc
          omega
      · rw [e1, Outcome.bind_ok] at h
        dsimp only at h
        split at h
        · obtain ⟨x, -, h⟩ := (Outcome.bind_eq_ok _ _ _).mp h
          cases h
          simp
        · cases h
  obtain ⟨d, hd⟩ : ∃ d, l[i]? = some d := ⟨_, List.getElem?_eq_getElem (by omega)⟩
  refine ⟨d, l.drop (i + 1), ?_, ?_⟩
  · rw [hkept]
    obtain ⟨hi, rfl⟩ := List.getElem?_eq_some_iff.1 hd
    exact List.drop_eq_getElem_cons hi
  · intro x hx
    obtain ⟨k, hk, rfl⟩ := List.mem_iff_getElem.1 hx
    rw [List.getElem_drop]
    exact e4 (i + 1 + k) _ (by omega) (by rw [List.getElem?_map, List.getElem?_eq_getElem]; rfl)

example : (match interpolateGps gpsBuf ⟨1, 150000000⟩ (1 / 10) true with
    | .ok (_, kept) => decide (kept.length + 1 = gpsBuf.length)
    | _ => false) = true := by decide +kernel

/-- The inertial messages of a run. -/
def imuCame {α : Type} : List (CollectEv α) → List α
  | [] => []
  | .imu m :: es => m :: imuCame es
  | _ :: es => imuCame es

theorem imu_kept {α : Type} (es : List (CollectEv α)) : imuStoredAll es = imuCame es := by
  have : ∀ (es : List (CollectEv α)) (l : List α), es.foldl imuStored l = l ++ imuCame es := by
    intro es
    induction es with
    | nil => intro l; simp [imuCame]
    | cons e es ih =>
      intro l
      rw [List.foldl_cons, ih]
      cases e <;> simp [imuStored, imuCame]
  exact (this es []).trans (List.nil_append _)

/-- C129 is false for inertial messages: there is no bound on what is stored, even if a submap is finished after every
message, so that none of them is of use any more. -/
theorem C129_imu_fails : ¬ ∃ n, ∀ ts : List SimpleTime,
    (imuStoredAll (ts.flatMap fun t => [CollectEv.imu t, .takeCloud, .submap t])).length ≤ n := by
  rintro ⟨n, hn⟩
  have key : ∀ ts : List SimpleTime, imuCame (ts.flatMap fun t => [CollectEv.imu t, .takeCloud, .submap t]) = ts := by
    intro ts
    induction ts with
    | nil => rfl
    | cons t ts ih => rw [List.flatMap_cons]; simp [imuCame, ih]
  have := hn (List.replicate (n + 1) ⟨0, 0⟩)
  rw [imu_kept, key, List.length_replicate] at this
  omega

end Verif
