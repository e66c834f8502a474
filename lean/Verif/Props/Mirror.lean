import Verif.Spec.Mirror
import Verif.Spec.RootEnd
import Verif.Props.Bitrate
import Verif.Props.Escapes
import Verif.Props.FileSystem

/-!
# C87: a repository directory behind a web server
-/

namespace RustTuf.Props
open Spec RustTuf Client

/-! ### Transfers that are fast enough -/

theorem bitrate_append (a : List (Ev × Nat × Nat)) : ∀ (s : Bitrate) (b : List (Ev × Nat × Nat)),
    (s.run (a ++ b)).2 = ((s.run a).2.run b).2 := by
  induction a with
  | nil => intro s b; rfl
  | cons x a ih => intro s b; exact ih _ b

/-- A brisk transfer passes the bitrate check unchanged. -/
theorem brisk_passes (min : Nat) (polls : List (Ev × Nat × Nat)) (h : Brisk min polls) :
    ((Bitrate.new min).run polls).1 = polls.map Prod.fst := by
  have key : ∀ rest history, polls = history ++ rest →
      ((((Bitrate.new min).run history).2).run rest).1 = rest.map Prod.fst := by
    intro rest
    induction rest with
    | nil => intro _ _; rfl
    | cons x rest ih =>
      intro history e
      obtain ⟨ev, t1, t2⟩ := x
      have hnext : Bitrate.next min history ev t1 t2 = ev := by
        by_cases hd : ∃ bs, ev = .data bs ∧ bs ≠ []
        · obtain ⟨bs, rfl, hne⟩ := hd
          rcases h history bs t1 t2 rest e with hq | hq
          · rcases C50_aborted_only_if_slow min history bs hne t1 t2 with h1 | ⟨-, h1, -⟩
            · exact h1
            · exact absurd hq (not_lt.2 h1)
          · exact C50_fast_enough_passes_partial min history bs hne t1 t2 hq
        · exact C50_other_events_pass min history ev t1 t2 fun bs hb => by
            by_contra hne
            exact hd ⟨bs, hb, hne⟩
      have e2 : (((Bitrate.new min).run history).2.poll ev t1 t2).2 =
          ((Bitrate.new min).run (history ++ [(ev, t1, t2)])).2 := by
        rw [bitrate_append]; rfl
      show (((Bitrate.new min).run history).2.poll ev t1 t2).1 ::
        ((((Bitrate.new min).run history).2.poll ev t1 t2).2.run rest).1 = ev :: rest.map Prod.fst
      rw [e2, ih (history ++ [(ev, t1, t2)]) (by rw [e]; simp)]
      exact congrArg (· :: _) hnext
  exact key polls [] rfl

/-! ### Names -/

section names
variable {h : HttpRepository} {cwd : List Str} {f : FileSystem} {docs : FileName}

theorem web_safe {k : MemKey} (hk : WebKey k) : ∀ c ∈ (webParts h k).2, UrlSafe c := by
  cases k with
  | metadata p v => exact fun c hc => (C59_accepted_components p hk.2).2 p v hk.1 c hc
  | target p => exact fun c hc => (C59_accepted_components p hk.2).1 p hk.1 c hc

/-- The file of a key is found by walking from `docs` along the path of its URL. -/
theorem name_of_url (hp : PointsAt h cwd f docs) (hres : f.resolve = resolve cwd) {k : MemKey}
    (hk : WebKey k) :
    ∃ uri p q names, extendUri h.uri (webParts h k).1 (webParts h k).2 = .ok uri ∧
      uri.scheme = h.uri.scheme ∧ uri.authority = h.uri.authority ∧
      uri.pathAndQuery = some (p, q) ∧ serverFile p = names.map utf8 ∧ f.name k = docs ++ names := by
  obtain ⟨base, hb, hm, ht⟩ := hp.directories
  have hsafe : ∀ c ∈ ((webParts h k).1.getD []) ++ (webParts h k).2, UrlSafe c := by
    intro c hc
    rcases List.mem_append.1 hc with hc | hc
    · refine hp.prefixes c ?_
      cases k with
      | metadata p v => exact .inl hc
      | target p => exact .inr hc
    · exact web_safe hk c hc
  obtain ⟨uri, p, e1, e2, e3⟩ := C59_server_stays_below_partial h.uri hp.address (webParts h k).1
    (webParts h k).2 hsafe
  obtain ⟨uri', b, g1, g2, g3, -, -⟩ := C59_url_shape h.uri hp.address (webParts h k).1 (webParts h k).2
  rw [e1] at g1
  cases g1
  refine ⟨uri, p, _, base ++ (((webParts h k).1.getD []) ++ (webParts h k).2).filter (· ≠ []), e1, g2, g3,
    e2, by rw [e3, hb, List.map_append], ?_⟩
  have ext : ∀ dir comps, (∀ c ∈ comps, UrlSafe c) →
      resolve cwd (pathExtend dir comps) = resolve cwd dir ++ comps.filter (· ≠ []) := fun dir comps hc =>
    resolve_extend cwd comps dir fun c hcm => ⟨(hc c hcm).2.1, (hc c hcm).2.2.1, (hc c hcm).2.2.2⟩
  cases k with
  | metadata p v =>
    rw [FileSystem.name, hres, metadataFile, ext _ (MetadataPath.components p v) (web_safe (h := h) hk), hm]
    simp [webParts, List.filter_append]
  | target p =>
    rw [FileSystem.name, hres, targetFile, ext _ (TargetPath.components p) (web_safe (h := h) hk), ht]
    simp [webParts, List.filter_append]

end names

theorem webAnswer_eq {O : Type} (h : HttpRepository) (net : Network O) (limit : Option Nat)
    (digest : HashData) (d : TargetDescription) (o : O) (k : MemKey) :
    webAnswer h net limit digest d o k =
      (h.get net (webParts h k).1 (webParts h k).2 o).1.map h.reader := by
  cases k with
  | metadata p v =>
    simp only [webAnswer, HttpRepository.provider, webParts]
    rcases h.get net h.metadataPrefix (MetadataPath.components p v) o with ⟨_ | _, _⟩ <;> rfl
  | target p =>
    simp only [webAnswer, HttpRepository.provider, webParts]
    rcases h.get net h.targetsPrefix (TargetPath.components p) o with ⟨_ | _, _⟩ <;> rfl

theorem get_from_server {O : Type} (h : HttpRepository) (net : Network O) (docs : FileName) (t : Tree)
    (hs : FileServer net h.uri.scheme h.uri.authority docs t h.minBytesPerSecond)
    (hagent : net.headerValue h.userAgent = true) (pre : Option (List Str)) (comps : List Str) (uri : Uri)
    (p : Str) (q : Option Str) (names : List Str) (e1 : extendUri h.uri pre comps = .ok uri)
    (e2 : uri.scheme = h.uri.scheme) (e3 : uri.authority = h.uri.authority)
    (e4 : uri.pathAndQuery = some (p, q)) (e5 : serverFile p = names.map utf8) (o : O) :
    (∀ bs, t (docs ++ names) = some (.file bs) →
      ∃ evs, (h.get net pre comps o).1.map h.reader = .ok evs ∧ delivered evs = (bs, .eof)) ∧
    (t (docs ++ names) = none → (h.get net pre comps o).1.map h.reader = .error .notFound) := by
  unfold HttpRepository.get
  rw [e1]
  simp only [hagent, Bool.not_true, Bool.false_eq_true, if_false]
  constructor
  · intro bs hf
    obtain ⟨body, r1, r2, r3⟩ := hs.found uri h.userAgent o p q names bs e2 e3 e4 e5 hf
    cases hr : net.request uri h.userAgent o with
    | mk r o' =>
      rw [hr] at r1
      cases r1
      refine ⟨h.reader body, rfl, ?_⟩
      unfold HttpRepository.reader
      rw [brisk_passes _ _ r3]
      exact r2
  · intro hf
    obtain ⟨body, r1⟩ := hs.missing uri h.userAgent o p q names e2 e3 e4 e5 hf
    cases hr : net.request uri h.userAgent o with
    | mk r o' =>
      rw [hr] at r1
      cases r1
      rfl

/-- **C87.** An HTTP repository that points at the directories of a file system repository behind a
web server sees exactly its files: it delivers the content of every file, and says that a file is
missing when there is none. For all accepted paths without percent signs, whatever limits and digests
are asked for. -/
theorem C87_web_sees_files_partial {O : Type} (h : HttpRepository) (net : Network O) (cwd : List Str)
    (f : FileSystem) (hres : f.resolve = resolve cwd) (docs : FileName) (t : Tree)
    (hs : FileServer net h.uri.scheme h.uri.authority docs t h.minBytesPerSecond)
    (hp : PointsAt h cwd f docs) (hagent : net.headerValue h.userAgent = true)
    (limit : Option Nat) (digest : HashData) (d : TargetDescription) (o : O) (k : MemKey)
    (hk : WebKey k) :
    (∀ bs, t (f.name k) = some (.file bs) →
      ∃ evs, webAnswer h net limit digest d o k = .ok evs ∧ delivered evs = (bs, .eof)) ∧
    (t (f.name k) = none → webAnswer h net limit digest d o k = .error .notFound) := by
  obtain ⟨uri, p, q, names, e1, e2, e3, e4, e5, e6⟩ := name_of_url hp hres hk
  rw [e6, webAnswer_eq]
  exact get_from_server h net docs t hs hagent _ _ uri p q names e1 e2 e3 e4 e5 o

/-- **C87.** Which files an HTTP repository sees under names with percent signs: those that are found by
walking from the base along the names that are left after decoding all percent escapes. -/
theorem C87_web_sees_decoded_names {O : Type} (h : HttpRepository) (net : Network O) (docs : FileName)
    (t : Tree) (hs : FileServer net h.uri.scheme h.uri.authority docs t h.minBytesPerSecond)
    (hu : ValidBase h.uri) (hagent : net.headerValue h.userAgent = true) (limit : Option Nat)
    (digest : HashData) (d : TargetDescription) (o : O) (k : MemKey) (hk : AcceptedKey k)
    (hpre : ∀ c ∈ (webParts h k).1.getD [], '/' ∉ c) (names : List Str)
    (hn : serverWalk (serverFile (basePath h.uri))
      ((((webParts h k).1.getD []) ++ (webParts h k).2).map serverName) = names.map utf8) :
    (∀ bs, t (docs ++ names) = some (.file bs) →
      ∃ evs, webAnswer h net limit digest d o k = .ok evs ∧ delivered evs = (bs, .eof)) ∧
    (t (docs ++ names) = none → webAnswer h net limit digest d o k = .error .notFound) := by
  have hsl : ∀ c ∈ ((webParts h k).1.getD []) ++ (webParts h k).2, '/' ∉ c := by
    intro c hc
    rcases List.mem_append.1 hc with hc | hc
    · exact hpre c hc
    · cases k with
      | metadata p v =>
        obtain ⟨-, hs⟩ := accepted_iff_meta.1 hk
        exact (metadata_component hs v hc).noSlash
      | target p =>
        obtain ⟨-, hs⟩ := accepted_iff_target.1 hk
        exact (accepted_component hs hc).noSlash
  obtain ⟨uri, p, e1, e2, e3⟩ := C59_server_file h.uri hu (webParts h k).1 (webParts h k).2 hsl
  obtain ⟨uri', b, g1, g2, g3, -, -⟩ := C59_url_shape h.uri hu (webParts h k).1 (webParts h k).2
  rw [e1] at g1
  cases g1
  rw [webAnswer_eq]
  exact get_from_server h net docs t hs hagent _ _ uri p _ names e1 g2 g3 e2 (e3.trans hn) o

/-! ### Errors -/

theorem ending_mem {evs : List Ev} {k : IoKind} : (delivered evs).2 = .error k → .err k ∈ evs := by
  induction evs with
  | nil => exact fun h => nomatch h
  | cons e evs ih =>
    cases e with
    | pending => exact fun h => .tail _ (ih h)
    | err k' =>
      intro h
      cases h
      exact .head _
    | data bs =>
      unfold delivered
      split
      · exact fun h => nomatch h
      · exact fun h => .tail _ (ih h)

theorem run_errors {k : IoKind} : ∀ (polls : List (Ev × Nat × Nat)) (s : Bitrate),
    .err k ∈ (s.run polls).1 → k = .timedOut ∨ .err k ∈ polls.map Prod.fst := by
  intro polls
  induction polls with
  | nil => exact fun _ h => nomatch h
  | cons p polls ih =>
    obtain ⟨ev, t1, t2⟩ := p
    intro s h
    rcases List.mem_cons.1 h with h | h
    · cases ev with
      | pending => cases h
      | err k' => cases h; exact .inr (.head _)
      | data bs =>
        unfold Bitrate.poll at h
        dsimp only at h
        repeat' split at h
        all_goals cases h
        exact .inl rfl
    · rcases ih _ h with h | h
      · exact .inl h
      · exact .inr (.tail _ h)

/-- **C87.** A body that breaks off or is too slow never looks like a missing file: reading it fails with
an error of the kind `Other` or `TimedOut`. -/
theorem C87_body_errors (h : HttpRepository) (body : Body) (k : IoKind)
    (hk : (delivered (h.reader body)).2 = .error k) : k = .other ∨ k = .timedOut := by
  rcases run_errors body.polls _ (ending_mem hk) with rfl | hm
  · exact .inr rfl
  · obtain ⟨x, hx, e⟩ := List.mem_map.1 hm
    obtain ⟨c, _, rfl⟩ := List.mem_map.1 hx
    rcases c with ⟨c, t⟩
    cases c <;> cases e
    exact .inl rfl

theorem run_eof : ∀ (polls : List (Ev × Nat × Nat)) (s : Bitrate) (bs : Bytes),
    delivered (s.run polls).1 = (bs, .eof) → delivered (polls.map Prod.fst) = (bs, .eof) := by
  intro polls
  induction polls with
  | nil => exact fun _ _ h => h
  | cons p polls ih =>
    obtain ⟨ev, t1, t2⟩ := p
    intro s bs h
    rw [Bitrate.run] at h
    dsimp only [List.map_cons] at h ⊢
    generalize hs' : (s.poll ev t1 t2).2 = s' at h
    have he : (s.poll ev t1 t2).1 = ev ∨ (s.poll ev t1 t2).1 = .err .timedOut := by
      unfold Bitrate.poll
      cases ev with
      | pending => exact .inl rfl
      | err k => exact .inl rfl
      | data bs =>
        dsimp only
        split
        · rename_i e; subst e; exact .inl rfl
        · repeat' split
          all_goals first | exact .inl rfl | exact .inr rfl
    rcases he with he | he
    · rw [he] at h
      cases ev with
      | pending => exact ih s' bs h
      | err k => cases h
      | data b =>
        change delivered (.data b :: polls.map Prod.fst) = _
        unfold delivered at h ⊢
        by_cases e : b = []
        · rw [if_pos e] at h ⊢
          exact h
        · rw [if_neg e] at h ⊢
          cases hd : delivered (s'.run polls).1 with
          | mk x y =>
            rw [hd] at h
            cases h
            rw [ih s' x hd]
    · rw [he] at h
      cases h

/-- **C87.** A body is never cut: if reading it comes to an end without an error, then all of it has
arrived, and what was read is its content. -/
theorem C87_body_is_whole (h : HttpRepository) (body : Body) (bs : Bytes)
    (hd : delivered (h.reader body) = (bs, .eof)) : wholeBody body = some bs := by
  have := run_eof body.polls _ bs hd
  clear hd
  induction body generalizing bs with
  | nil => cases this; rfl
  | cons x body ih =>
    obtain ⟨c, t⟩ := x
    cases c with
    | pending => exact ih bs this
    | failed => cases this
    | bytes b =>
      change delivered (.data b :: (Body.polls body).map Prod.fst) = _ at this
      unfold delivered at this
      unfold wholeBody
      split
      · rename_i e
        rw [if_pos e] at this
        cases this
        rfl
      · rename_i e
        rw [if_neg e] at this
        cases hd : delivered ((Body.polls body).map Prod.fst) with
        | mk y z =>
          rw [hd] at this
          cases this
          rw [ih y hd]
          rfl

example : delivered (HttpRepository.reader ⟨⟨none, none, none⟩, [], none, none, 5⟩
      [(.pending, 0, 0), (.bytes [1], 1, 2), (.bytes [2, 3], 3, 4), (.bytes [], 5, 6)]) = ([1, 2, 3], .eof) ∧
    delivered (HttpRepository.reader ⟨⟨none, none, none⟩, [], none, none, 5⟩
      [(.bytes [1], 1, 2), (.failed, 3, 4)]) = ([1], .error .other) ∧
    delivered (HttpRepository.reader ⟨⟨none, none, none⟩, [], none, none, 5⟩
      [(.bytes [1], 1, 2), (.bytes [2], 3, 40000000000)]) = ([1], .error .timedOut) :=
  ⟨by decide +kernel, by decide +kernel, by decide +kernel⟩

/-- **C87.** An HTTP repository says that a file is missing exactly if the server has answered its
request with the status 404. -/
theorem C87_missing_iff_404 {O : Type} (h : HttpRepository) (net : Network O) (limit : Option Nat)
    (digest : HashData) (d : TargetDescription) (o : O) (k : MemKey) :
    webAnswer h net limit digest d o k = .error .notFound ↔
      ∃ uri body, extendUri h.uri (webParts h k).1 (webParts h k).2 = .ok uri ∧
        net.headerValue h.userAgent = true ∧
        (net.request uri h.userAgent o).1 = some (404, body) := by
  rw [webAnswer_eq]
  unfold HttpRepository.get
  cases hu : extendUri h.uri (webParts h k).1 (webParts h k).2 with
  | error e =>
    refine ⟨fun he => ?_, fun ⟨_, _, he, _⟩ => nomatch he⟩
    exfalso
    cases he
    unfold extendUri at hu
    simp only at hu
    split at hu
    · rename_i e hp
      cases hu
      unfold parsePathAndQuery at hp
      simp only at hp
      repeat' split at hp
      all_goals cases hp
    · unfold uriFromParts at hu
      repeat' split at hu
      all_goals cases hu
  | ok uri =>
    dsimp only
    cases hh : net.headerValue h.userAgent with
    | false =>
      constructor
      · intro he; cases he
      · rintro ⟨_, _, _, he, _⟩; cases he
    | true =>
      simp only [Bool.not_true, Bool.false_eq_true, if_false]
      cases hr : net.request uri h.userAgent o with
      | mk r o' =>
        cases r with
        | none =>
          constructor
          · intro he; cases he
          · rintro ⟨_, _, e1, _, he⟩
            cases e1
            rw [hr] at he
            cases he
        | some x =>
          obtain ⟨code, body⟩ := x
          dsimp only
          constructor
          · intro he
            refine ⟨uri, body, rfl, trivial, ?_⟩
            rw [hr]
            by_cases h1 : code = 200
            · simp only [statusResult, if_pos h1] at he
              cases he
            · by_cases h2 : code = 404
              · rw [h2]
              · simp only [statusResult, if_neg h1, if_neg h2] at he
                cases he
          · rintro ⟨_, _, e1, _, he⟩
            cases e1
            rw [hr] at he
            cases he
            rfl

/-! ### The builder -/

/-- **C87.** `HttpRepositoryBuilder::new` panics exactly if the URL is no URI, and else starts with this
URI. -/
theorem C87_new_panics (parse : Str → Option Uri) (url : Str) :
    (HttpRepositoryBuilder.new parse url = .error .panic ↔ parse url = none) ∧
    ∀ uri, parse url = some uri → HttpRepositoryBuilder.new parse url = .ok (.newWithUri uri) := by
  unfold HttpRepositoryBuilder.new
  cases parse url with
  | none => exact ⟨⟨fun _ => rfl, fun _ => rfl⟩, fun _ h => nomatch h⟩
  | some u => exact ⟨⟨(by intro h; cases h), (by intro h; cases h)⟩, by rintro _ ⟨⟩; rfl⟩

/-- **C87.** A repository has what its builder was told last; without being told, the user agent is
`rust-tuf`, there are no prefixes and the minimum rate is 4096 bytes per second. -/
theorem C87_builder (uri : Uri) (cs : List HttpRepositoryBuilder.Call) :
    (cs.foldl HttpRepositoryBuilder.call (.newWithUri uri)).build =
      ⟨uri,
       lastSetting (fun | .userAgent s => some s | _ => none) "rust-tuf".toList cs,
       lastSetting (fun | .metadataPrefix p => some (some p) | _ => none) none cs,
       lastSetting (fun | .targetsPrefix p => some (some p) | _ => none) none cs,
       lastSetting (fun | .minBytesPerSecond n => some n | _ => none) 4096 cs⟩ := by
  have app : ∀ {α : Type} (get : HttpRepositoryBuilder.Call → Option α) (d : α) cs c,
      lastSetting get d (cs ++ [c]) = (get c).getD (lastSetting get d cs) := by
    intro α get d cs c
    unfold lastSetting
    cases hg : get c <;> simp [List.filterMap_append, hg]
  induction cs using List.reverseRecOn with
  | nil => rfl
  | append_singleton cs c ih =>
    rw [List.foldl_append, List.foldl_cons, List.foldl_nil]
    simp only [HttpRepositoryBuilder.build, HttpRepository.mk.injEq] at ih
    obtain ⟨h1, h2, h3, h4, h5⟩ := ih
    simp only [app, HttpRepositoryBuilder.build]
    cases c <;>
      simp only [HttpRepositoryBuilder.call, h1, h2, h3, h4, h5, Option.getD_some, Option.getD_none]

/-! ### There are file servers -/

open Classical in
/-- A server for the files below a directory. -/
noncomputable def staticServer (O : Type) (docs : FileName) (t : Tree) : Network O where
  headerValue _ := true
  request uri _ o :=
    (match uri.pathAndQuery with
      | none => some (404, [])
      | some (p, _) =>
        if h : ∃ bs names, serverFile p = names.map utf8 ∧ t (docs ++ names) = some (.file bs) then
          some (200, [(.bytes h.choose, 0, 0)])
        else some (404, []), o)

theorem staticServer_serves (O : Type) (scheme authority : Option Str) (docs : FileName) (t : Tree)
    (min : Nat) : FileServer (staticServer O docs t) scheme authority docs t min where
  found := by
    intro uri agent o p q names bs _ _ hp hn hf
    have h : ∃ bs names, serverFile p = names.map utf8 ∧ t (docs ++ names) = some (.file bs) :=
      ⟨bs, names, hn, hf⟩
    refine ⟨[(.bytes h.choose, 0, 0)], ?_, ?_, ?_⟩
    · simp only [staticServer, hp]
      rw [dif_pos h]
    · obtain ⟨names', hn', hf'⟩ := h.choose_spec
      have : names = names' := (List.map_injective_iff.2 fun _ _ => utf8_injective) (hn.symm.trans hn')
      rw [← this, hf] at hf'
      injection hf' with hf'
      injection hf' with hf'
      simp only [Body.polls, List.map_cons, List.map_nil, Chunk.ev, delivered, ← hf']
      split <;> simp_all
    · intro history bs' t1 t2 rest e
      left
      have : t2 = 0 := by
        have hm : ((.data bs', t1, t2) : Ev × Nat × Nat) ∈ Body.polls [(.bytes h.choose, 0, 0)] := by
          rw [e]; simp
        simp only [Body.polls, List.map_cons, List.map_nil, List.mem_singleton, Prod.mk.injEq] at hm
        exact hm.2.2
      subst this
      simp [secs]
  missing := by
    intro uri agent o p q names _ _ hp hn hf
    refine ⟨[], ?_⟩
    simp only [staticServer, hp]
    rw [dif_neg]
    rintro ⟨bs, names', hn', hf'⟩
    have : names = names' := (List.map_injective_iff.2 fun _ _ => utf8_injective) (hn.symm.trans hn')
    rw [← this, hf] at hf'
    cases hf'

/-! ### Percent signs -/

namespace Web

/-- A repository in `/srv/tuf`. -/
def fs : FileSystem := ⟨"/srv/tuf/metadata".toList, "/srv/tuf/targets".toList, resolve []⟩

/-- A web server for `/srv`, and the HTTP repository for it. -/
def repo : HttpRepository :=
  ([.metadataPrefix ["metadata".toList], .targetsPrefix ["x".toList], .userAgent "me".toList,
    .targetsPrefix ["targets".toList]].foldl HttpRepositoryBuilder.call
      (.newWithUri ⟨some "https".toList, some "h".toList, some ("/tuf".toList, none)⟩)).build

theorem points : PointsAt repo [] fs ["srv".toList] where
  address := by
    refine ⟨rfl, fun p q h => ?_⟩
    cases h
    exact ⟨by decide, fun _ h => nomatch h⟩
  prefixes := by
    rintro c (h | h)
    · rw [List.mem_singleton.1 h]
      exact ⟨by decide, by decide, by decide, by decide⟩
    · rw [List.mem_singleton.1 h]
      exact ⟨by decide, by decide, by decide, by decide⟩
  directories := ⟨["tuf".toList], by decide +kernel, by decide +kernel, by decide +kernel⟩

/-- Two targets. -/
def tree : Tree := fun n =>
  if n = fs.name (.target "a%20b".toList) then some (.file [1])
  else if n = fs.name (.target "a b".toList) then some (.file [2])
  else none

end Web

/-- **C87.** Why names with percent signs are excluded: under such a name the HTTP repository delivers
the file of another target. Both names are accepted by the crate. -/
theorem C87_percent_is_misread : ∃ (h : HttpRepository) (net : Network Unit) (f : FileSystem)
    (docs : FileName) (t : Tree) (a b : TargetPath),
    f.resolve = resolve [] ∧ FileServer net h.uri.scheme h.uri.authority docs t h.minBytesPerSecond ∧
    PointsAt h [] f docs ∧ net.headerValue h.userAgent = true ∧
    TargetPath.new a = .ok a ∧ TargetPath.new b = .ok b ∧
    t (f.name (.target a)) = some (.file [1]) ∧ t (f.name (.target b)) = some (.file [2]) ∧
    ∀ limit digest d, ∃ evs, webAnswer h net limit digest d () (.target a) = .ok evs ∧
      delivered evs = ([2], .eof) := by
  have hs := staticServer_serves Unit Web.repo.uri.scheme Web.repo.uri.authority ["srv".toList] Web.tree
    Web.repo.minBytesPerSecond
  refine ⟨Web.repo, staticServer Unit ["srv".toList] Web.tree, Web.fs, ["srv".toList], Web.tree,
    "a%20b".toList, "a b".toList, rfl, hs, Web.points, rfl, by decide, by decide, by decide +kernel,
    by decide +kernel, fun limit digest d => ?_⟩
  have hb : WebKey (.target "a b".toList) := ⟨by decide, by decide⟩
  have hab : webAnswer Web.repo (staticServer Unit ["srv".toList] Web.tree) limit digest d ()
      (.target "a%20b".toList) =
    webAnswer Web.repo (staticServer Unit ["srv".toList] Web.tree) limit digest d ()
      (.target "a b".toList) := by
    rw [webAnswer_eq, webAnswer_eq]
    unfold HttpRepository.get
    rw [show extendUri Web.repo.uri (webParts Web.repo (.target "a%20b".toList)).1
        (webParts Web.repo (.target "a%20b".toList)).2 =
      extendUri Web.repo.uri (webParts Web.repo (.target "a b".toList)).1
        (webParts Web.repo (.target "a b".toList)).2 by decide +kernel]
  rw [hab]
  exact (C87_web_sees_files_partial Web.repo _ [] Web.fs rfl ["srv".toList] Web.tree hs Web.points rfl
    limit digest d () (.target "a b".toList) hb).1 [2] (by decide +kernel)

/-- Hypotheses of C87_web_sees_files_partial. -/
example : FileServer (staticServer Unit ["srv".toList] Web.tree) Web.repo.uri.scheme
    Web.repo.uri.authority ["srv".toList] Web.tree Web.repo.minBytesPerSecond ∧
    PointsAt Web.repo [] Web.fs ["srv".toList] ∧ WebKey (.target "a b".toList) ∧
    WebKey (.metadata "a/b".toList (.number 1)) ∧
    Web.tree (Web.fs.name (.target "a b".toList)) = some (.file [2]) ∧
    Web.tree (Web.fs.name (.metadata "a/b".toList (.number 1))) = none :=
  ⟨staticServer_serves _ _ _ _ _ _, Web.points, ⟨by decide, by decide⟩, ⟨by decide, by decide⟩,
    by decide +kernel, by decide +kernel⟩

/-- Hypotheses of C87_web_sees_decoded_names: under `%2e%2e/%74argets/a%20b` the file of the target
`a b` is seen. -/
example : AcceptedKey (.target "%2e%2e/%74argets/a%20b".toList) ∧
    (∀ c ∈ (webParts Web.repo (.target "%2e%2e/%74argets/a%20b".toList)).1.getD [], '/' ∉ c) ∧
    serverWalk (serverFile (basePath Web.repo.uri))
      ((((webParts Web.repo (.target "%2e%2e/%74argets/a%20b".toList)).1.getD []) ++
        (webParts Web.repo (.target "%2e%2e/%74argets/a%20b".toList)).2).map serverName) =
      ["tuf".toList, "targets".toList, "a b".toList].map utf8 ∧
    Web.tree (["srv".toList] ++ ["tuf".toList, "targets".toList, "a b".toList]) = some (.file [2]) :=
  ⟨by show TargetPath.new _ = _; decide +kernel, by decide +kernel, by decide +kernel, by decide +kernel⟩

end RustTuf.Props
