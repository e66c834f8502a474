import Verif.Props.Client
import Verif.Spec.Config

/-!
# C96: configured limits
-/

namespace RustTuf.Props
open Client Spec RustTuf ConfigBuilder
variable {W : Type} {E : Env} {D : Digest} {R : World W} {cfg : Config}

theorem lastSet_snoc {α : Type} (pick : Setting → Option α) (dflt : α) (cs : List Setting) (c : Setting) :
    lastSet pick dflt (cs ++ [c]) = (pick c).getD (lastSet pick dflt cs) := by
  unfold lastSet
  cases h : pick c <;> simp [h]

theorem fold_settings (cs : List Setting) :
    (cs.foldl set ConfigBuilder.default) =
      ⟨lastSet rootLimit (some 1048576) cs, lastSet timestampLimit (some 32768) cs, lastSet depthLimit 8 cs,
        lastSet translator VirtualTargetPath.new cs⟩ := by
  induction cs using List.reverseRecOn with
  | nil => rfl
  | append_singleton cs c ih =>
    simp only [List.foldl_append, List.foldl_cons, List.foldl_nil, ih, lastSet_snoc]
    cases c <;> rfl

/-- **C96.** A configuration has the values that were set last, and the defaults otherwise. Building it
never fails. -/
theorem C96_last_setting_wins (checks : Bool) (calls : List Setting) :
    ∃ cfg, build checks calls = .ok cfg ∧ cfg.overflowChecks = checks ∧
      cfg.maxRootLength = lastSet rootLimit (some 1048576) calls ∧
      cfg.maxTimestampLength = lastSet timestampLimit (some 32768) calls ∧
      cfg.maxDelegationDepth = lastSet depthLimit 8 calls ∧
      cfg.realToVirtual = lastSet translator VirtualTargetPath.new calls := by
  refine ⟨_, rfl, rfl, ?_⟩
  rw [fold_settings]
  exact ⟨rfl, rfl, rfl, rfl⟩

example : lastSet rootLimit (some 1048576) [.maxRootLength none, .maxDelegationDepth 3, .maxRootLength (some 5)] =
    some 5 ∧ lastSet depthLimit 8 [.maxRootLength none, .maxDelegationDepth 3] = 3 ∧
    lastSet timestampLimit (some 32768) [.maxRootLength none] = some 32768 := by decide

/-- **C96.** The identity that is demanded of path translators holds for the default one, in both
directions. -/
theorem C96_default_translator (p : Str) (h : TargetPath.new p = .ok p ∨ VirtualTargetPath.new p = .ok p) :
    (defaultTranslator p).toOption.map defaultVirtualToReal = some (.ok p) ∧
    (defaultVirtualToReal p).toOption.map defaultTranslator = some (.ok p) := by
  unfold defaultTranslator defaultVirtualToReal
  unfold TargetPath.new VirtualTargetPath.new at *
  split at h
  · simp at h
  · rename_i hs
    simp [hs, Except.toOption]

example : TargetPath.new "a/b".toList = .ok "a/b".toList := by decide +kernel

/-! ### Requests -/

theorem Limited.nil (a b : Option Nat) : Limited a b [] :=
  ⟨by simp, by simp⟩

theorem Limited.append {a b : Option Nat} {l l' : List LogEntry} (h : Limited a b l) (h' : Limited a b l') :
    Limited a b (l ++ l') := by
  refine ⟨fun src p v m hh hm => ?_, fun pre src p raw post e => ?_⟩
  · rcases List.mem_append.1 hm with hm | hm
    · exact h.requests src p v m hh hm
    · exact h'.requests src p v m hh hm
  · rcases List.append_eq_append_iff.1 e with ⟨x, rfl, e2⟩ | ⟨x, e1, e2⟩
    · obtain ⟨pre', v, m, hh, rfl, e3⟩ := h'.received x src p raw post e2
      exact ⟨l ++ pre', v, m, hh, by simp, e3⟩
    · cases x with
      | nil =>
        simp only [List.append_nil] at e1
        simp only [List.nil_append] at e2
        obtain ⟨pre', v, m, hh, e3, _⟩ := h'.received [] src p raw post (by simpa using e2.symm)
        simp at e3
      | cons y ys =>
        simp only [List.cons_append, List.cons.injEq] at e2
        obtain ⟨rfl, _⟩ := e2
        exact h.received pre src p raw ys e1

theorem Limited.ofGood {t : Tuf} {l : List LogEntry} (h : Good E D cfg t l) :
    Limited cfg.maxRootLength cfg.maxTimestampLength l := by
  refine ⟨fun src p v m hh hm => ?_, fun pre src p raw post e => ?_⟩
  · obtain ⟨pre, post, rfl⟩ := List.append_of_mem hm
    obtain ⟨k, rfl, hr⟩ := h pre _ post rfl
    cases hr with
    | root | rootWrapped => exact .inl ⟨rfl, rfl⟩
    | timestamp => exact .inr (.inl ⟨rfl, rfl⟩)
    | snapshot | targets | delegated => exact .inr (.inr ⟨_, rfl⟩)
  · obtain ⟨pre', v, m, hh, e1, e2⟩ := h pre _ post e
    exact ⟨pre', v, m, hh, e1, e2.length⟩

/-- The record since `L` is limited. -/
def Since (cfg : Config) (L : List LogEntry) (io : Io W) : Prop :=
  ∃ l, io.log = L ++ l ∧ Limited cfg.maxRootLength cfg.maxTimestampLength l

theorem Since.more {L : List LogEntry} {io io' : Io W} (h : Since cfg L io) {l : List LogEntry}
    (e : io'.log = io.log ++ l) (hl : Limited cfg.maxRootLength cfg.maxTimestampLength l) : Since cfg L io' := by
  obtain ⟨l0, h1, h2⟩ := h
  exact ⟨l0 ++ l, by rw [e, h1, List.append_assoc], Limited.append h2 hl⟩

theorem first_limited (src : Source) (v : MetadataVersion) (L : List LogEntry) :
    Tri (Since (W := W) cfg L) (fetchMetadata D R src .root (MetadataPath.fromRole .root) v cfg.maxRootLength none)
      (fun _ => Since cfg L) (fun _ => Since cfg L) := by
  refine Tri.fix fun s0 h0 => ?_
  have one : Limited cfg.maxRootLength cfg.maxTimestampLength
      [.fetch src "root".toList v cfg.maxRootLength none] := by
    refine ⟨fun src p v m hh hm => ?_, fun pre src p raw post e => ?_⟩
    · simp only [List.mem_singleton, LogEntry.fetch.injEq] at hm
      obtain ⟨_, rfl, _, rfl, _⟩ := hm
      exact .inl ⟨rfl, rfl⟩
    · have := congrArg List.length e
      cases pre with
      | nil => simp at e
      | cons a pre => simp at e
  refine (fetchMetadata_log (D := D) (R := R) src .root (MetadataPath.fromRole .root) v cfg.maxRootLength none
    s0.log).conseq (fun s h => by rw [h]) ?_ ?_
  · rintro raw s ⟨_, hf, e⟩
    refine h0.more e ⟨fun src p v m hh hm => ?_, fun pre src' p raw' post e => ?_⟩
    · simp only [List.mem_cons, List.not_mem_nil, or_false, LogEntry.fetch.injEq, reduceCtorEq] at hm
      obtain ⟨_, rfl, _, rfl, _⟩ := hm
      exact .inl ⟨rfl, rfl⟩
    · cases pre with
      | nil => simp at e
      | cons a pre =>
        cases pre with
        | nil =>
          simp only [List.cons_append, List.nil_append, List.cons.injEq, LogEntry.got.injEq] at e
          obtain ⟨rfl, ⟨rfl, rfl, rfl⟩, _⟩ := e
          exact ⟨[], v, _, none, rfl, hf.length⟩
        | cons b pre => simp at e
  · rintro e s (h | h)
    · exact h0.more (l := []) (by simp [h]) (Limited.nil _ _)
    · exact h0.more h one

theorem new_since (t : Tuf) (L : List LogEntry) : Tri (Since (W := W) cfg L) (Client.new E D R cfg t)
    (fun _ => Since cfg L) (fun _ => Since cfg L) := by
  intro io h
  have := loadLocal_tr (E := E) (D := D) (R := R) (cfg := cfg) (t0 := t) (L0 := io.log) ⟨t, io⟩
    ⟨[], by simp, Good.nil, rfl⟩
  unfold Client.new
  cases hh : loadLocal E D R cfg ⟨t, io⟩ with
  | mk r s =>
    rw [hh] at this
    have fin : Since cfg L s.io := by
      cases r with
      | ok _ => obtain ⟨l, h1, h2, _⟩ := this; exact h.more h1 (Limited.ofGood h2)
      | error _ => obtain ⟨l, h1, h2, _⟩ := this; exact h.more h1 (Limited.ofGood h2)
    cases r with
    | ok _ => exact fin
    | error e => cases e <;> exact fin

theorem store_since (L : List LogEntry) (role : Role) (p : MetadataPath) (v : MetadataVersion) (raw : Bytes) :
    Tri (Since (W := W) cfg L) (storeMetadata R role p v raw) (fun _ => Since cfg L) (fun _ => Since cfg L) := by
  refine Tri.fix fun s0 h0 => ?_
  have one : Limited cfg.maxRootLength cfg.maxTimestampLength [.store p v raw] := by
    refine ⟨by simp, fun pre src p raw post e => ?_⟩
    cases pre <;> simp at e
  refine (storeMetadata_log (R := R) role p v raw s0.log).conseq (fun s h => by rw [h]) ?_ ?_
  · intro _ s h; exact h0.more h one
  · rintro _ s (h | h)
    · exact h0.more (l := []) (by simp [h]) (Limited.nil _ _)
    · exact h0.more h one

theorem construct_since (start : Start) (L : List LogEntry) : Tri (Since (W := W) cfg L)
    (construct E D R cfg start) (fun _ => Since cfg L) (fun _ => Since cfg L) := by
  have pure : ∀ r : Except Err Tuf, Tri (Since (W := W) cfg L) (M.ofExcept r) (fun _ => Since cfg L)
      (fun _ => Since cfg L) := fun r => Tri.ofExcept (fun _ _ _ h => h) (fun _ _ _ h => h)
  cases start with
  | trustedRoot raw => exact Tri.bind (pure _) fun t => new_since t L
  | trustedLocal =>
    exact Tri.bind (first_limited _ _ L) fun raw => Tri.bind (pure _) fun t => new_since t L
  | trustedRootKeys v n keys =>
    refine Tri.bind (Q := fun _ => Since cfg L) ?_ fun x => Tri.bind (pure _) fun t =>
      Tri.bind (Tri.when (fun _ => store_since L _ _ _ _) (fun _ _ h => h)) fun _ => new_since t L
    unfold fetchLocalOrRemote
    refine Tri.bind (Q := fun _ => Since cfg L) ((Tri.attempt (first_limited _ _ L)).post fun r s h => by
      cases r <;> exact h) fun r => ?_
    cases r with
    | ok raw => exact Tri.ret fun _ h => h
    | error e =>
      have base : Tri (Since (W := W) cfg L) (M.fail e : M (Io W) (Bool × Bytes)) (fun _ => Since cfg L)
        (fun _ => Since cfg L) := Tri.fail fun _ h => h
      cases e <;> first
        | exact base
        | exact Tri.bind (first_limited _ _ L) fun raw => Tri.ret fun _ h => h

/-- **C96.** Everything that a client asks the repositories for, in construction and in any sequence of
calls, is limited by the configuration or by trusted metadata; and no document that is longer is
received. This holds for failing constructions and calls too. -/
theorem C96_limits_enforced (E : Env) (D : Digest) (R : World W) (checks : Bool) (settings : List Setting)
    (cfg : Config) (hcfg : build checks settings = .ok cfg) (start : Start) (io : Io W) :
    (∃ l, (construct E D R cfg start io).2.log = io.log ++ l ∧
      Limited (lastSet rootLimit (some 1048576) settings) (lastSet timestampLimit (some 32768) settings) l) ∧
    ∀ t io', construct E D R cfg start io = (.ok t, io') → ∀ calls, ∃ l,
      (execAll E D R cfg ⟨t, io'⟩ calls).io.log = io.log ++ l ∧
      Limited (lastSet rootLimit (some 1048576) settings) (lastSet timestampLimit (some 32768) settings) l := by
  obtain ⟨c, h1, _, h2, h3, _⟩ := C96_last_setting_wins checks settings
  rw [hcfg] at h1
  cases h1
  rw [← h2, ← h3]
  have h0 : Since cfg io.log io := ⟨[], by simp, Limited.nil _ _⟩
  have hc := construct_since (E := E) (D := D) (R := R) (cfg := cfg) start io.log io h0
  have hc' : Since cfg io.log (construct E D R cfg start io).2 := by
    cases hh : construct E D R cfg start io with
    | mk r s => rw [hh] at hc; cases r <;> exact hc
  refine ⟨hc', fun t io' e calls => ?_⟩
  rw [e] at hc'
  obtain ⟨l, e1, e2, _⟩ := execAll_tr (R := R) (E := E) (D := D) (cfg := cfg) calls ⟨t, io'⟩
    (t0 := t) (L0 := io'.log) ⟨[], by simp, Good.nil, rfl⟩
  exact Since.more (io' := (execAll E D R cfg ⟨t, io'⟩ calls).io) hc' e1 (Limited.ofGood e2)

/-- **C96.** In particular, unless the limits for root or timestamp metadata are turned off, there is a
limit for every request. -/
theorem C96_always_limited (E : Env) (D : Digest) (R : World W) (checks : Bool) (settings : List Setting)
    (cfg : Config) (hcfg : build checks settings = .ok cfg)
    (hr : Setting.maxRootLength none ∉ settings) (ht : Setting.maxTimestampLength none ∉ settings)
    (start : Start) (io io' : Io W) (t : Tuf) (h : construct E D R cfg start io = (.ok t, io')) (calls : List Call) :
    ∃ l, (execAll E D R cfg ⟨t, io'⟩ calls).io.log = io.log ++ l ∧
      ∀ src p v m hh, .fetch src p v m hh ∈ l → ∃ n, m = some n := by
  obtain ⟨l, h1, h2⟩ := (C96_limits_enforced E D R checks settings cfg hcfg start io).2 t io' h calls
  refine ⟨l, h1, fun src p v m hh hm => ?_⟩
  have some_root : ∃ n, lastSet rootLimit (some 1048576) settings = some n := by
    unfold lastSet
    cases hl : (settings.filterMap rootLimit).getLast? with
    | none => exact ⟨_, rfl⟩
    | some x =>
      obtain ⟨c, hc, e⟩ := List.mem_filterMap.1 (List.mem_of_getLast? hl)
      cases c <;> simp only [rootLimit, reduceCtorEq, Option.some.injEq] at e
      subst e
      rename_i max
      cases max with
      | none => exact absurd hc hr
      | some n => exact ⟨n, rfl⟩
  have some_ts : ∃ n, lastSet timestampLimit (some 32768) settings = some n := by
    unfold lastSet
    cases hl : (settings.filterMap timestampLimit).getLast? with
    | none => exact ⟨_, rfl⟩
    | some x =>
      obtain ⟨c, hc, e⟩ := List.mem_filterMap.1 (List.mem_of_getLast? hl)
      cases c <;> simp only [timestampLimit, reduceCtorEq, Option.some.injEq] at e
      subst e
      rename_i max
      cases max with
      | none => exact absurd hc ht
      | some n => exact ⟨n, rfl⟩
  rcases h2.requests src p v m hh hm with ⟨_, rfl⟩ | ⟨_, rfl⟩ | h
  · exact some_root
  · exact some_ts
  · exact h

/-- The requests of a client with smaller limits, from its construction to the end of an update. -/
example : ∃ cfg, build true [.maxRootLength (some 70), .maxTimestampLength (some 60)] = .ok cfg ∧
    (match construct Toy.env Toy.digest Toy.remoteRepo cfg (.trustedRoot [1]) ⟨Toy.Disk.empty, []⟩ with
      | (.ok t, io) => (requests (execAll Toy.env Toy.digest Toy.remoteRepo cfg ⟨t, io⟩ [.update]).io.log).map
        fun r => (r.path, r.max)
      | _ => []) =
    [("root".toList, some 70), ("timestamp".toList, some 60), ("root".toList, some 70), ("root".toList, some 70),
      ("timestamp".toList, some 60), ("snapshot".toList, some 10), ("targets".toList, some 10)] :=
  ⟨_, rfl, by decide +kernel⟩

end RustTuf.Props
