import Verif.Spec.SubmapSwap
import Verif.Proofs.CloudHolder
import Verif.Proofs.Names
/-! Invariant of the shared store of swappable clouds. -/
namespace Verif
open Spec

variable {maxPoints : Nat} {cfg : SwapCfg}

theorem file_inj (hp : ¬ ['f', '_'] <+: cfg.pre) {j k : CloudKey} (h : cfg.file j = cfg.file k) :
    j = k := by
  have inj : ∀ {a b : List Char}, String.ofList a = String.ofList b → a = b := by
    intro a b e
    have := congrArg String.toList e
    simpa using this
  cases j with
  | submap a =>
    cases k with
    | submap b => rw [submapFileName_inj (List.append_cancel_left (inj h))]
    | frame b => exact absurd (List.append_cancel_left (inj h)) (submap_frame_ne hp a b)
  | frame a =>
    cases k with
    | submap b => exact absurd (List.append_cancel_left (inj h)).symm (submap_frame_ne hp b a)
    | frame b => rw [frameFileName_inj (List.append_cancel_left (inj h))]

theorem file_ne_empty (k : CloudKey) : cfg.file k ≠ "" := by
  intro h
  have := congrArg String.toList h
  cases k <;> simp [SwapCfg.file, submapFileName, frameFileName, binSuffix] at this

/-- The holder of `k` in the store stands for the cloud `c`. -/
structure CellInv (maxPoints : Nat) (cfg : SwapCfg) (st : SwapState) (k : CloudKey) (c : BitsCloud)
    (saved : Bool) : Prop where
  small : c.points.length < 2 ^ 64 ∧ c.points.length ≤ maxPoints
  held : ∃ h, st.holder k = some h ∧ HolderRel maxPoints (h, st.files) c saved ∧
    (saved = true → h.filename = cfg.file k)

/-- The whole store stands for `m`. -/
structure StoreInv (maxPoints : Nat) (cfg : SwapCfg) (m : Built) (saved : CloudKey → Bool)
    (st : SwapState) : Prop where
  some' : ∀ k c, m k = some c → CellInv maxPoints cfg st k c (saved k)
  none' : ∀ k, m k = none → st.holder k = none

theorem store_congr {m : Built} {saved : CloudKey → Bool} {st st' : SwapState}
    (hi : StoreInv maxPoints cfg m saved st) (h1 : st'.holder = st.holder)
    (h2 : st'.files = st.files) : StoreInv maxPoints cfg m saved st' := by
  refine ⟨fun k c hk => ?_, fun k hk => by rw [h1]; exact hi.none' k hk⟩
  obtain ⟨a, b⟩ := hi.some' k c hk
  exact ⟨a, by rw [h1, h2]; exact b⟩

/-- Applying an operation that does not touch the files of other clouds. -/
theorem apply_inv {m : Built} {saved : CloudKey → Bool} {st st' : SwapState} {k : CloudKey}
    {op : HolderOp} (sv : Bool)
    (hi : StoreInv maxPoints cfg m saved st)
    (h : st.apply maxPoints k op = .ok st')
    (hcell : ∀ c hh r, m k = some c → st.holder k = some hh →
      HolderRel maxPoints (hh, st.files) c (saved k) →
      (saved k = true → hh.filename = cfg.file k) →
      c.points.length < 2 ^ 64 ∧ c.points.length ≤ maxPoints →
      Holder.step maxPoints (hh, st.files) op = .ok r →
      HolderRel maxPoints r c sv ∧ (sv = true → r.1.filename = cfg.file k) ∧
      ∀ j, j ≠ k → r.2 (cfg.file j) = st.files (cfg.file j)) :
    StoreInv maxPoints cfg m (fun j => if j = k then sv else saved j) st' ∧
      st'.count = st.count ∧ st'.got = st.got ∧ st'.inactive = st.inactive := by
  unfold SwapState.apply at h
  cases hk : st.holder k with
  | none =>
    rw [hk] at h
    cases h
    refine ⟨⟨?_, hi.none'⟩, rfl, rfl, rfl⟩
    intro j c hj
    by_cases hjk : j = k
    · subst hjk
      obtain ⟨-, hh, e, -⟩ := hi.some' j c hj
      rw [hk] at e; cases e
    · simp only [hjk, ↓reduceIte]
      exact hi.some' j c hj
  | some hh =>
    rw [hk] at h
    simp only at h
    rw [Outcome.bind_eq_ok] at h
    obtain ⟨r, h1, h2⟩ := h
    simp only [Outcome.pure_eq, Outcome.ok.injEq] at h2
    subst h2
    refine ⟨⟨?_, ?_⟩, rfl, rfl, rfl⟩
    · intro j c hj
      by_cases hjk : j = k
      · subst hjk
        obtain ⟨hs, hh', e, hr, hf⟩ := hi.some' j c hj
        rw [hk] at e
        cases e
        obtain ⟨a1, a2, a3⟩ := hcell c hh r hj hk hr hf hs h1
        refine ⟨hs, r.1, by simp, by simpa using a1, by simpa using a2⟩
      · obtain ⟨hs, hh', e, hr, hf⟩ := hi.some' j c hj
        -- the cloud at `k` exists in `m`, since its holder exists
        obtain ⟨ck, hmk⟩ : ∃ ck, m k = some ck := by
          cases hmk : m k with
          | none => rw [hi.none' k hmk] at hk; cases hk
          | some ck => exact ⟨ck, rfl⟩
        obtain ⟨hsk, hhk, ek, hrk, hfk⟩ := hi.some' k ck hmk
        rw [hk] at ek
        cases ek
        obtain ⟨-, -, a3⟩ := hcell ck hh r hmk hk hrk hfk hsk h1
        refine ⟨hs, hh', by simp [hjk, e], ?_, by simpa [hjk] using hf⟩
        simp only [hjk, ↓reduceIte]
        refine ⟨hr.nonempty, hr.mem, hr.swapped, ?_⟩
        intro hsv
        have := hr.file hsv
        simp only [hf hsv] at this ⊢
        rw [a3 j hjk]
        exact this
    · intro j hj
      have hjk : j ≠ k := by
        rintro rfl
        rw [hi.none' j hj] at hk; cases hk
      simp only [hjk, ↓reduceIte]
      exact hi.none' j hj

theorem apply_save (hp : ¬ ['f', '_'] <+: cfg.pre) {m : Built} {saved : CloudKey → Bool}
    {st st' : SwapState} {k : CloudKey} (hi : StoreInv maxPoints cfg m saved st)
    (h : st.apply maxPoints k (.save (cfg.file k)) = .ok st') :
    StoreInv maxPoints cfg m (fun j => if j = k then true else saved j) st' ∧
      st'.count = st.count ∧ st'.got = st.got ∧ st'.inactive = st.inactive := by
  apply apply_inv true hi h
  intro c hh r hm hk hr hf hs hst
  have := holder_step maxPoints (hh, st.files) r c (saved k) (.save (cfg.file k)) hr hs (by simp) hst
  refine ⟨this, ?_, ?_⟩
  all_goals
    simp only [Holder.step] at hst
    rw [if_neg (file_ne_empty k)] at hst
    split at hst
    · cases hst
    · cases hst
      first
        | exact fun _ => rfl
        | exact fun j hj => if_neg (fun e => hj (file_inj hp e))

theorem apply_clear {m : Built} {saved : CloudKey → Bool}
    {st st' : SwapState} {k : CloudKey} (hi : StoreInv maxPoints cfg m saved st)
    (hsv : saved k = true)
    (h : st.apply maxPoints k .clear = .ok st') :
    StoreInv maxPoints cfg m (fun j => if j = k then true else saved j) st' ∧
      st'.count = st.count ∧ st'.got = st.got ∧ st'.inactive = st.inactive := by
  apply apply_inv true hi h
  intro c hh r hm hk hr hf hs hst
  have := holder_step maxPoints (hh, st.files) r c (saved k) .clear hr hs (fun _ => hsv) hst
  simp only [savedAfter, hsv, logical] at this
  refine ⟨this, ?_, ?_⟩
  all_goals
    simp only [Holder.step] at hst
    split at hst
    · cases hst
      first
        | exact fun _ => hf hsv
        | exact fun _ _ => rfl
    · cases hst
      first
        | exact fun _ => hf hsv
        | exact fun _ _ => rfl

/-- Making a cloud available never fails and leaves it in memory. -/
theorem mem_ok {hh : Holder} {files : Files} {c : BitsCloud} {sv : Bool}
    (hr : HolderRel maxPoints (hh, files) c sv)
    (hs : c.points.length < 2 ^ 64 ∧ c.points.length ≤ maxPoints) :
    ∃ r : Holder × Files, Holder.step maxPoints (hh, files) .cloudInMemory = .ok r ∧
      HolderRel maxPoints r c sv ∧ r.1.filename = hh.filename ∧ r.2 = files ∧
      r.1.inMemory = true ∧ r.1.inner = c := by
  cases hm : hh.inMemory with
  | true =>
    refine ⟨(hh, files), by simp [Holder.step, hm], hr, rfl, rfl, hm, hr.mem hm⟩
  | false =>
    obtain ⟨h1, h2, h3⟩ := hr.swapped hm
    have hf := hr.file h1
    have hrt := C09_roundtrip c emptyCloud [] maxPoints hs.1 hs.2
    rw [List.append_nil] at hrt
    have hne := hr.nonempty
    refine ⟨({ hh with inner := c, eigenCount := c.points.length, hasNormals := false,
                       inMemory := true }, files), ?_, ?_, rfl, rfl, rfl, rfl⟩
    · simp only at hf
      simp only [Holder.step, hm, Bool.false_eq_true, ↓reduceIte, hf]
      simp [hrt, Holder.setInner, hne]
    · exact ⟨hne, fun _ => rfl, by simp, fun _ => hf⟩

theorem apply_mem {m : Built} {saved : CloudKey → Bool}
    {st st' : SwapState} {k : CloudKey} (hi : StoreInv maxPoints cfg m saved st)
    (h : st.apply maxPoints k .cloudInMemory = .ok st') :
    StoreInv maxPoints cfg m saved st' ∧
      st'.count = st.count ∧ st'.got = st.got ∧ st'.inactive = st.inactive := by
  have := apply_inv (saved k) hi h (by
    intro c hh r hm hk hr hf hs hst
    obtain ⟨r', e, a1, a2, a3, -⟩ := mem_ok hr hs
    rw [e] at hst
    cases hst
    refine ⟨a1, ?_, ?_⟩
    · intro hsv; rw [a2]; exact hf hsv
    · intro j _; rw [a3])
  have e : (fun j => if j = k then saved k else saved j) = saved := by
    funext j; by_cases hj : j = k <;> simp [hj]
  rwa [e] at this

theorem create_inv {m : Built} {saved : CloudKey → Bool}
    {st st' : SwapState} {k : CloudKey} {c : BitsCloud} (hi : StoreInv maxPoints cfg m saved st)
    (hs : c.points.length < 2 ^ 64 ∧ c.points.length ≤ maxPoints)
    (h : st.create k c = .ok st') :
    StoreInv maxPoints cfg (fun j => if j = k then some c else m j)
      (fun j => if j = k then false else saved j) st' ∧
      st'.files = st.files ∧
      st'.count = st.count ∧ st'.got = st.got ∧ st'.inactive = st.inactive := by
  unfold SwapState.create at h
  rw [Outcome.bind_eq_ok] at h
  obtain ⟨hh, h1, h2⟩ := h
  simp only [Outcome.pure_eq, Outcome.ok.injEq] at h2
  subst h2
  refine ⟨⟨?_, ?_⟩, rfl, rfl, rfl, rfl⟩
  · intro j d hj
    by_cases hjk : j = k
    · simp only [hjk, ↓reduceIte, Option.some.injEq] at hj
      subst hj
      unfold Holder.new Holder.setInner at h1
      split at h1
      · cases h1
      · rename_i hne
        cases h1
        exact ⟨hs, _, by simp [hjk]; rfl, ⟨hne, by simp, by simp, by simp [hjk]⟩, by simp [hjk]⟩
    · simp only [hjk, ↓reduceIte] at hj
      obtain ⟨a, hh', b1, b2, b3⟩ := hi.some' j d hj
      exact ⟨a, hh', by simp [hjk, b1], by simpa [hjk] using b2, by simpa [hjk] using b3⟩
  · intro j hj
    by_cases hjk : j = k
    · simp [hjk] at hj
    · simp only [hjk, ↓reduceIte] at hj ⊢
      exact hi.none' j hj

/-- Key of frame number `i` of a submap. -/
def fkey (id : SubmapId) (i : Nat) : CloudKey := .frame ⟨id.trajectory, id.submap, i⟩

theorem createFrames_inv (id : SubmapId) : ∀ (cs : List BitsCloud) (i : Nat) (m : Built)
    (saved : CloudKey → Bool) (st st' : SwapState), StoreInv maxPoints cfg m saved st →
    (∀ d ∈ cs, d.points.length < 2 ^ 64 ∧ d.points.length ≤ maxPoints) →
    st.createFrames id i cs = .ok st' →
    ∃ (m' : Built) (saved' : CloudKey → Bool), StoreInv maxPoints cfg m' saved' st' ∧
      (∀ j, j < cs.length → m' (fkey id (i + j)) = cs[j]?) ∧
      (∀ k, (∀ j, j < cs.length → k ≠ fkey id (i + j)) → m' k = m k ∧ saved' k = saved k) ∧
      st'.count = st.count ∧ st'.got = st.got ∧ st'.inactive = st.inactive
  | [], i, m, saved, st, st', hi, _, h => by
    cases h
    exact ⟨m, saved, hi, by simp, fun _ _ => ⟨rfl, rfl⟩, rfl, rfl, rfl⟩
  | c :: cs, i, m, saved, st, st', hi, hs, h => by
    unfold SwapState.createFrames at h
    rw [Outcome.bind_eq_ok] at h
    obtain ⟨s1, h1, h2⟩ := h
    obtain ⟨a1, -, a2, a3, a4⟩ := create_inv hi (hs c (by simp)) h1
    obtain ⟨m', sv', b1, b2, b3, b4, b5, b6⟩ := createFrames_inv id cs (i + 1) _ _ s1 st' a1
      (fun d hd => hs d (by simp [hd])) h2
    refine ⟨m', sv', b1, ?_, ?_, b4.trans a2, b5.trans a3, b6.trans a4⟩
    · intro j hj
      cases j with
      | zero =>
        have := (b3 (fkey id (i + 0)) (by
          intro j _ e
          simp only [fkey, CloudKey.frame.injEq, FrameId.mk.injEq, true_and] at e
          omega)).1
        rw [this]
        simp [fkey]
      | succ j =>
        have := b2 j (by simpa using hj)
        rw [show i + (j + 1) = i + 1 + j by omega, this]
        simp
    · intro k hk
      have h3 := b3 k (by
        intro j hj
        have := hk (j + 1) (by simpa using hj)
        rwa [show i + (j + 1) = i + 1 + j by omega] at this)
      have h0 : k ≠ fkey id i := by simpa using hk 0 (by simp)
      unfold fkey at h0
      rw [h3.1, h3.2]
      simp [h0]

/-- Saving the frames keeps the invariant. -/
theorem saveFrames_inv (hp : ¬ ['f', '_'] <+: cfg.pre) (id : SubmapId) {m : Built} :
    ∀ (is : List Nat) (saved : CloudKey → Bool) (st st' : SwapState),
    StoreInv maxPoints cfg m saved st →
    st.saveFrames maxPoints cfg id is = .ok st' →
    ∃ saved' : CloudKey → Bool, StoreInv maxPoints cfg m saved' st' ∧
      (∀ k, saved k = true → saved' k = true) ∧
      st'.count = st.count ∧ st'.got = st.got ∧ st'.inactive = st.inactive
  | [], saved, st, st', hi, h => by
    cases h
    exact ⟨saved, hi, fun _ h => h, rfl, rfl, rfl⟩
  | i :: is, saved, st, st', hi, h => by
    unfold SwapState.saveFrames at h
    rw [Outcome.bind_eq_ok] at h
    obtain ⟨s1, h1, h⟩ := h
    rw [Outcome.bind_eq_ok] at h
    obtain ⟨s2, h2, h3⟩ := h
    obtain ⟨a1, a2, a3, a4⟩ := apply_save hp hi h1
    obtain ⟨b1, b2, b3, b4⟩ := apply_clear a1 (by simp) h2
    obtain ⟨sv, c1, c2, c3, c4, c5⟩ := saveFrames_inv hp id is _ s2 st' b1 h3
    refine ⟨sv, c1, ?_, c3.trans (b2.trans a2), c4.trans (b3.trans a3), c5.trans (b4.trans a4)⟩
    intro k hk
    apply c2
    simp [hk]

/-- The invariant of a run. -/
structure SwapInv (maxPoints : Nat) (cfg : SwapCfg) (m : Built) (st : SwapState) : Prop where
  store : ∃ saved, StoreInv maxPoints cfg m saved st ∧
    (cfg.disk = true → ∀ id, st.got id = true → saved (.submap id) = true)
  frames : ∀ id : SubmapId, m (.submap id) = none →
    ∀ f : FrameId, f.trajectory = id.trajectory → f.submap = id.submap → m (.frame f) = none

theorem swapInv_init : SwapInv maxPoints cfg (fun _ => none) SwapState.init :=
  ⟨⟨fun _ => false, ⟨by simp, by simp [SwapState.init]⟩, by simp [SwapState.init]⟩, by simp⟩

theorem swapInv_step (hp : ¬ ['f', '_'] <+: cfg.pre) {m : Built} {st st' : SwapState} (e : SwapEv)
    (hsm : ∀ id c fs, e = .build id c fs → ∀ d ∈ c :: fs,
      d.points.length < 2 ^ 64 ∧ d.points.length ≤ maxPoints)
    (hi : SwapInv maxPoints cfg m st) (h : st.step maxPoints cfg e = .ok st') :
    SwapInv maxPoints cfg (remember m e) st' := by
  obtain ⟨⟨saved, hst, hgot⟩, hfr⟩ := hi
  cases e with
  | build id c fs =>
    simp only [SwapState.step] at h
    cases hm : m (.submap id) with
    | some d =>
      obtain ⟨-, hh, e, -⟩ := hst.some' _ _ hm
      rw [e] at h
      cases h
      have : remember m (.build id c fs) = m := by simp [remember, hm]
      rw [this]
      exact ⟨⟨saved, hst, hgot⟩, hfr⟩
    | none =>
      rw [hst.none' _ hm] at h
      simp only at h
      rw [Outcome.bind_eq_ok] at h
      obtain ⟨s1, h1, h⟩ := h
      rw [Outcome.bind_eq_ok] at h
      obtain ⟨s2, h2, h3⟩ := h
      simp only [Outcome.pure_eq, Outcome.ok.injEq] at h3
      subst h3
      obtain ⟨m1, sv1, a1, a2, a3, a4, a5, a6⟩ := createFrames_inv id fs 0 m saved st s1 hst
        (fun d hd => hsm id c fs rfl d (by simp [hd])) h1
      obtain ⟨b1, -, b2, b3, b4⟩ := create_inv a1 (hsm id c fs rfl c (by simp)) h2
      have hmm : (fun j => if j = CloudKey.submap id then some c else m1 j) =
          remember m (.build id c fs) := by
        funext k
        simp only [remember, hm, Option.isSome_none, Bool.false_eq_true, ↓reduceIte]
        cases k with
        | submap j =>
          simp only [CloudKey.submap.injEq]
          split
          · rfl
          · exact (a3 _ (by intro j _; simp [fkey])).1
        | frame f =>
          simp only [reduceCtorEq, ↓reduceIte]
          by_cases hf : f.trajectory = id.trajectory ∧ f.submap = id.submap
          · rw [if_pos hf]
            by_cases h0 : f.frame < 0
            · rw [if_pos h0]
              rw [(a3 (.frame f) (by
                intro j _ e
                simp only [fkey, CloudKey.frame.injEq] at e
                rw [e] at h0
                simp at h0
                omega)).1]
              exact hfr id hm f hf.1 hf.2
            · rw [if_neg h0]
              have hfk : CloudKey.frame f = fkey id f.frame.toNat := by
                unfold fkey
                rcases f with ⟨ft, fs', ff⟩
                simp only [CloudKey.frame.injEq, FrameId.mk.injEq] at hf h0 ⊢
                omega
              by_cases hlt : f.frame.toNat < fs.length
              · have := a2 f.frame.toNat hlt
                rw [Nat.zero_add, ← hfk] at this
                exact this
              · rw [(a3 (.frame f) (by
                  intro j hj e
                  rw [hfk] at e
                  simp only [fkey, CloudKey.frame.injEq, FrameId.mk.injEq, true_and] at e
                  omega)).1]
                rw [hfr id hm f hf.1 hf.2, List.getElem?_eq_none (by omega)]
          · rw [if_neg hf]
            exact (a3 (.frame f) (by
              intro j _ e
              simp only [fkey, CloudKey.frame.injEq] at e
              apply hf
              rw [e]
              exact ⟨rfl, rfl⟩)).1
      rw [hmm] at b1
      refine ⟨⟨_, store_congr b1 rfl rfl, ?_⟩, ?_⟩
      · intro hd j hj
        simp only at hj
        by_cases hjid : j = id
        · simp [hjid] at hj
        · simp only [hjid, ↓reduceIte] at hj
          rw [b3, a5] at hj
          simp only [CloudKey.submap.injEq, hjid, ↓reduceIte]
          rw [(a3 (.submap j) (by intro _ _; simp [fkey])).2]
          exact hgot hd j hj
      · intro j hj f hf1 hf2
        simp only [remember, hm, Option.isSome_none, Bool.false_eq_true, ↓reduceIte] at hj ⊢
        by_cases hjid : j = id
        · simp [hjid] at hj
        · simp only [hjid, ↓reduceIte] at hj
          have : ¬ (f.trajectory = id.trajectory ∧ f.submap = id.submap) := by
            intro hh
            apply hjid
            rcases j with ⟨j1, j2⟩; rcases id with ⟨i1, i2⟩
            simp only [SubmapId.mk.injEq] at *
            omega
          rw [if_neg this]
          exact hfr j hj f hf1 hf2
  | matched id =>
    have hrem : remember m (.matched id) = m := rfl
    rw [hrem]
    simp only [SwapState.step] at h
    split at h
    · cases h; exact ⟨⟨saved, hst, hgot⟩, hfr⟩
    · rw [Outcome.check_bind_eq_ok] at h
      obtain ⟨hg, h⟩ := h
      rw [Outcome.bind_eq_ok] at h
      obtain ⟨s1, h1, h2⟩ := h
      simp only [Outcome.pure_eq, Outcome.ok.injEq] at h2
      subst h2
      by_cases hd : cfg.disk = true
      · rw [if_pos hd, Outcome.bind_eq_ok] at h1
        obtain ⟨s0, h0, h1⟩ := h1
        obtain ⟨a1, a2, a3, a4⟩ := apply_save hp hst h0
        obtain ⟨sv, b1, b2, b3, b4, b5⟩ := saveFrames_inv hp id _ _ s0 s1 a1 h1
        refine ⟨⟨sv, store_congr b1 rfl rfl, ?_⟩, hfr⟩
        intro _ j hj
        apply b2
        by_cases hjid : j = id
        · simp [hjid]
        · simp only [hjid, ↓reduceIte] at hj
          rw [b4, a3] at hj
          simp only [CloudKey.submap.injEq, hjid, ↓reduceIte]
          exact hgot hd j hj
      · rw [if_neg hd] at h1
        cases h1
        exact ⟨⟨saved, store_congr hst rfl rfl, fun hd' => absurd hd' hd⟩, hfr⟩
  | tick id sec =>
    have hrem : remember m (.tick id sec) = m := rfl
    rw [hrem]
    simp only [SwapState.step] at h
    split at h
    · rename_i hc
      split at h
      · have hst' : StoreInv maxPoints cfg m saved { st with
            inactive := fun j => if j = id then st.inactive id + sec else st.inactive j } :=
          store_congr hst rfl rfl
        obtain ⟨a1, a2, a3, a4⟩ := apply_clear hst' (hgot hc.1 id hc.2) h
        refine ⟨⟨_, a1, ?_⟩, hfr⟩
        intro hd j hj
        rw [a3] at hj
        split
        · rfl
        · exact hgot hd j hj
      · cases h
        exact ⟨⟨saved, store_congr hst rfl rfl, hgot⟩, hfr⟩
    · cases h; exact ⟨⟨saved, hst, hgot⟩, hfr⟩
  | access k =>
    have hrem : remember m (.access k) = m := rfl
    rw [hrem]
    simp only [SwapState.step] at h
    cases k with
    | submap id =>
      have hst' : StoreInv maxPoints cfg m saved { st with
          inactive := fun j => if j = id then 0 else st.inactive j } :=
        store_congr hst rfl rfl
      obtain ⟨a1, a2, a3, a4⟩ := apply_mem hst' h
      exact ⟨⟨saved, a1, fun hd j hj => hgot hd j (by rw [a3] at hj; exact hj)⟩, hfr⟩
    | frame f =>
      obtain ⟨a1, a2, a3, a4⟩ := apply_mem hst h
      exact ⟨⟨saved, a1, fun hd j hj => hgot hd j (by rw [a3] at hj; exact hj)⟩, hfr⟩

theorem swapInv_run (hp : ¬ ['f', '_'] <+: cfg.pre) :
    ∀ (es : List SwapEv) (m : Built) (st st' : SwapState), SmallBuilds maxPoints es →
      SwapInv maxPoints cfg m st → st.run maxPoints cfg es = .ok st' →
      SwapInv maxPoints cfg (es.foldl remember m) st'
  | [], m, st, st', _, hi, h => by cases h; exact hi
  | e :: es, m, st, st', hs, hi, h => by
    unfold SwapState.run at h
    rw [Outcome.bind_eq_ok] at h
    obtain ⟨s1, h1, h2⟩ := h
    refine swapInv_run hp es _ s1 st' (fun id c fs hm => hs id c fs (by simp [hm])) ?_ h2
    exact swapInv_step hp e (fun id c fs he => hs id c fs (by simp [he])) hi h1

/-! Idle time -/

theorem apply_frameless {st st' : SwapState} {k : CloudKey} {op : HolderOp}
    (h : st.apply maxPoints k op = .ok st') :
    st'.got = st.got ∧ st'.inactive = st.inactive := by
  unfold SwapState.apply at h
  split at h
  · cases h; exact ⟨rfl, rfl⟩
  · rw [Outcome.bind_eq_ok] at h
    obtain ⟨r, -, h2⟩ := h
    simp only [Outcome.pure_eq, Outcome.ok.injEq] at h2
    subst h2; exact ⟨rfl, rfl⟩

theorem saveFrames_frameless (id : SubmapId) : ∀ (is : List Nat) (st st' : SwapState),
    st.saveFrames maxPoints cfg id is = .ok st' → st'.got = st.got ∧ st'.inactive = st.inactive
  | [], st, st', h => by cases h; exact ⟨rfl, rfl⟩
  | i :: is, st, st', h => by
    unfold SwapState.saveFrames at h
    rw [Outcome.bind_eq_ok] at h
    obtain ⟨s1, h1, h⟩ := h
    rw [Outcome.bind_eq_ok] at h
    obtain ⟨s2, h2, h3⟩ := h
    have a := apply_frameless h1
    have b := apply_frameless h2
    have c := saveFrames_frameless id is s2 st' h3
    exact ⟨c.1.trans (b.1.trans a.1), c.2.trans (b.2.trans a.2)⟩

theorem createFrames_frameless (id : SubmapId) : ∀ (cs : List BitsCloud) (i : Nat)
    (st st' : SwapState), st.createFrames id i cs = .ok st' →
      st'.got = st.got ∧ st'.inactive = st.inactive
  | [], i, st, st', h => by cases h; exact ⟨rfl, rfl⟩
  | c :: cs, i, st, st', h => by
    unfold SwapState.createFrames at h
    rw [Outcome.bind_eq_ok] at h
    obtain ⟨s1, h1, h2⟩ := h
    unfold SwapState.create at h1
    rw [Outcome.bind_eq_ok] at h1
    obtain ⟨hh, -, h1⟩ := h1
    simp only [Outcome.pure_eq, Outcome.ok.injEq] at h1
    have := createFrames_frameless id cs _ s1 st' h2
    rw [← h1] at this
    exact this

/-- What is known about the idle time of a submap after the history `es`. -/
structure IdleInv (cfg : SwapCfg) (id : SubmapId) (es : List SwapEv) (st : SwapState) : Prop where
  idle : ∃ es1 es2, es = es1 ++ es2 ∧ (∀ e ∈ es2, e ≠ .access (.submap id)) ∧
    st.inactive id = tickSum id es2
  got : st.got id = true → .matched id ∈ es
  zero : ¬ (cfg.disk = true ∧ st.got id = true) → st.inactive id = 0

theorem tickSum_append (id : SubmapId) : ∀ (a b : List SwapEv),
    tickSum id (a ++ b) = tickSum id a + tickSum id b
  | [], b => by simp [tickSum]
  | e :: a, b => by
    cases e <;> simp [tickSum, tickSum_append id a b, Int.add_assoc]

theorem idle_zero {id : SubmapId} {es : List SwapEv} {st : SwapState} (h : st.inactive id = 0) :
    ∃ es1 es2, es = es1 ++ es2 ∧ (∀ e ∈ es2, e ≠ .access (.submap id)) ∧
      st.inactive id = tickSum id es2 :=
  ⟨es, [], by simp, by simp, by simpa [tickSum] using h⟩

theorem idle_keep {id : SubmapId} {es : List SwapEv} {st st' : SwapState} {e : SwapEv}
    (h : ∃ es1 es2, es = es1 ++ es2 ∧ (∀ e ∈ es2, e ≠ .access (.submap id)) ∧
      st.inactive id = tickSum id es2)
    (hne : e ≠ .access (.submap id)) (hin : st'.inactive id = st.inactive id + tickSum id [e]) :
    ∃ es1 es2, es ++ [e] = es1 ++ es2 ∧ (∀ e ∈ es2, e ≠ .access (.submap id)) ∧
      st'.inactive id = tickSum id es2 := by
  obtain ⟨a, b, h1, h2, h3⟩ := h
  refine ⟨a, b ++ [e], by rw [h1, List.append_assoc], ?_, ?_⟩
  · intro x hx
    rw [List.mem_append, List.mem_singleton] at hx
    rcases hx with hx | rfl
    · exact h2 x hx
    · exact hne
  · rw [tickSum_append, hin, h3]

theorem idle_step {id : SubmapId} {es : List SwapEv} {st st' : SwapState} (e : SwapEv)
    (hi : IdleInv cfg id es st) (h : st.step maxPoints cfg e = .ok st') :
    IdleInv cfg id (es ++ [e]) st' := by
  obtain ⟨h1, h2, h3⟩ := hi
  have hgm : st.got id = true → .matched id ∈ es ++ [e] := fun hg => by simp [h2 hg]
  cases e with
  | build j c fs =>
    simp only [SwapState.step] at h
    split at h
    · cases h
      exact ⟨idle_keep h1 (by simp) (by simp [tickSum]), hgm, h3⟩
    · rw [Outcome.bind_eq_ok] at h
      obtain ⟨s1, h4, h⟩ := h
      rw [Outcome.bind_eq_ok] at h
      obtain ⟨s2, h5, h6⟩ := h
      simp only [Outcome.pure_eq, Outcome.ok.injEq] at h6
      subst h6
      have a := createFrames_frameless j fs 0 st s1 h4
      have b : s2.got = s1.got ∧ s2.inactive = s1.inactive := by
        unfold SwapState.create at h5
        rw [Outcome.bind_eq_ok] at h5
        obtain ⟨hh, -, h5⟩ := h5
        simp only [Outcome.pure_eq, Outcome.ok.injEq] at h5
        subst h5; exact ⟨rfl, rfl⟩
      by_cases hj : id = j
      · exact ⟨idle_zero (by simp [hj]), by simp [hj], by simp [hj]⟩
      · refine ⟨idle_keep h1 (by simp) (by simp [tickSum, hj, b.2, a.2]), ?_, ?_⟩
        · simp only [hj, ↓reduceIte, b.1, a.1]; exact hgm
        · simp only [hj, ↓reduceIte, b.1, a.1, b.2, a.2]; exact h3
  | matched j =>
    simp only [SwapState.step] at h
    split at h
    · cases h
      exact ⟨idle_keep h1 (by simp) (by simp [tickSum]), hgm, h3⟩
    · rw [Outcome.check_bind_eq_ok] at h
      obtain ⟨hg, h⟩ := h
      rw [Outcome.bind_eq_ok] at h
      obtain ⟨s1, h4, h5⟩ := h
      simp only [Outcome.pure_eq, Outcome.ok.injEq] at h5
      subst h5
      have a : s1.got = st.got ∧ s1.inactive = st.inactive := by
        split at h4
        · rw [Outcome.bind_eq_ok] at h4
          obtain ⟨s0, h0, h4⟩ := h4
          have x := apply_frameless h0
          have y := saveFrames_frameless j _ s0 s1 h4
          exact ⟨y.1.trans x.1, y.2.trans x.2⟩
        · cases h4; exact ⟨rfl, rfl⟩
      by_cases hj : id = j
      · refine ⟨idle_keep h1 (by simp) (by simp [tickSum, a.2]), by simp [hj], ?_⟩
        intro _
        show s1.inactive id = 0
        rw [a.2]
        apply h3
        rw [hj]
        simp [hg]
      · refine ⟨idle_keep h1 (by simp) (by simp [tickSum, a.2]), ?_, ?_⟩
        · simp only [hj, ↓reduceIte, a.1]; exact hgm
        · simp only [hj, ↓reduceIte, a.1, a.2]; exact h3
  | tick j sec =>
    simp only [SwapState.step] at h
    split at h
    · rename_i hc
      have a : st'.got = st.got ∧ st'.inactive =
          fun i => if i = j then st.inactive j + sec else st.inactive i := by
        split at h
        · exact apply_frameless h
        · cases h; exact ⟨rfl, rfl⟩
      by_cases hj : id = j
      · refine ⟨idle_keep h1 (by simp) (by simp [tickSum, a.2, hj]), ?_, ?_⟩
        · rw [a.1]; exact hgm
        · rw [a.1, hj]; intro hh; exact absurd hc hh
      · have hj' : ¬ j = id := fun e => hj e.symm
        refine ⟨idle_keep h1 (by simp) (by simp [tickSum, a.2, hj, hj']), ?_, ?_⟩
        · rw [a.1]; exact hgm
        · rw [a.1, a.2]; simp only [hj, ↓reduceIte]; exact h3
    · rename_i hc
      cases h
      by_cases hj : id = j
      · exact ⟨idle_zero (h3 (by rw [hj]; exact hc)), hgm, h3⟩
      · have hj' : ¬ j = id := fun e => hj e.symm
        exact ⟨idle_keep h1 (by simp) (by simp [tickSum, hj']), hgm, h3⟩
  | access k =>
    simp only [SwapState.step] at h
    have a := apply_frameless h
    cases k with
    | submap j =>
      simp only at a
      by_cases hj : id = j
      · have h0 : st'.inactive id = 0 := by rw [a.2]; simp [hj]
        exact ⟨idle_zero h0, by rw [a.1]; exact hgm, fun _ => h0⟩
      · have hk : st'.inactive id = st.inactive id := by rw [a.2]; simp [hj]
        refine ⟨idle_keep h1 ?_ (by simp [tickSum, hk]), by rw [a.1]; exact hgm, ?_⟩
        · intro e
          simp only [SwapEv.access.injEq, CloudKey.submap.injEq] at e
          exact hj e.symm
        · rw [a.1, hk]; exact h3
    | frame f =>
      simp only at a
      exact ⟨idle_keep h1 (by simp) (by simp [tickSum, a.2]), by rw [a.1]; exact hgm,
        by rw [a.1, a.2]; exact h3⟩

theorem idle_run {id : SubmapId} : ∀ (es pre : List SwapEv) (st st' : SwapState),
    IdleInv cfg id pre st → st.run maxPoints cfg es = .ok st' → IdleInv cfg id (pre ++ es) st'
  | [], pre, st, st', hi, h => by cases h; simpa using hi
  | e :: es, pre, st, st', hi, h => by
    unfold SwapState.run at h
    rw [Outcome.bind_eq_ok] at h
    obtain ⟨s1, h1, h2⟩ := h
    have := idle_run es (pre ++ [e]) s1 st' (idle_step e hi h1) h2
    simpa using this

theorem idle_init {id : SubmapId} : IdleInv cfg id [] SwapState.init :=
  ⟨⟨[], [], rfl, by simp, rfl⟩, by simp [SwapState.init], fun _ => rfl⟩

end Verif
