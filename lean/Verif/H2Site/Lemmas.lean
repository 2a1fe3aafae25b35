import Verif.H2Site.Spec
import Verif.H2Trip.Props
import Verif.Site.Lemmas
import Verif.H2Body.Props

namespace Fly.H2Site
open Site (Site Served Unchanged listed)
open Header (Pairs HList view Inv)
open Hpack (Entry)
open PyBridge (Cfg Reads)
open Trip (Unserved WrittenPath)
open H2Trip (Ask Conn Incoming Resp cells Carries Takes Apart Shows size Made)

theorem allow_get (s : Site) (x : Exchange) : b!"GET" ∈ listed (allow s x) := by
  unfold allow
  rw [Site.listed_join _ (by simp [Site.validMethods])]
  simp [Site.validMethods, Req.methodName]

/-- The header list of a response with a file. -/
theorem fileHeader_ok (date : Bytes) (f : Served) : Inv (fileHeader date f) ∧ view (fileHeader date f) =
    [(b!"content-length", Response.contLenStr f.size), (b!"etag", f.tag), (b!"date", date), (b!"last-modified", f.modified), (b!"content-type", f.mime)] := by
  obtain ⟨i1, v1⟩ := PyBridge.append_ok PyBridge.inv_init (n := b!"content-length") ⟨by simp, by decide⟩ (Response.contLenStr f.size)
  obtain ⟨i2, v2⟩ := PyBridge.append_ok i1 (n := b!"etag") ⟨by simp, by decide⟩ f.tag
  obtain ⟨i3, v3⟩ := PyBridge.addVerIfNo_ok i2 (n := b!"date") ⟨by simp, by decide⟩ date
  obtain ⟨i4, v4⟩ := PyBridge.append_ok i3 (n := b!"last-modified") ⟨by simp, by decide⟩ f.modified
  obtain ⟨i5, v5⟩ := PyBridge.addVerIfNo_ok i4 (n := b!"content-type") ⟨by simp, by decide⟩ f.mime
  refine ⟨i5, ?_⟩
  unfold fileHeader
  simp only
  rw [v5, v4, v3, v2, v1, show view HList.init = [] from rfl]
  simp

theorem notAllowedHeader_ok (date : Bytes) (table : List Route.Route) (u : Bytes) : Inv (notAllowedHeader date table u) ∧ view (notAllowedHeader date table u) =
    [(b!"allow", Site.joinMethods (Site.validMethods table u)), (b!"server", b!"fly"), (b!"date", date)] := by
  obtain ⟨i1, v1⟩ := PyBridge.append_ok PyBridge.inv_init (n := b!"allow") ⟨by simp, by decide⟩ (Site.joinMethods (Site.validMethods table u))
  obtain ⟨i2, v2⟩ := PyBridge.addVerIfNo_ok i1 (n := b!"server") ⟨by simp, by decide⟩ b!"fly"
  obtain ⟨i3, v3⟩ := PyBridge.addVerIfNo_ok i2 (n := b!"date") ⟨by simp, by decide⟩ date
  refine ⟨i3, ?_⟩
  unfold notAllowedHeader
  rw [v3, v2, v1, show view HList.init = [] from rfl]
  simp

/-- The plan of a file. -/
theorem prepare_file (c : Cfg) (f : Served) (now : Bytes) (hu : Unchanged c f now) (hd : Deliverable c f now) :
    ∃ p, H2B.prepare c.compress c.overflow c.threshold c.acc false none (some ⟨now, f.pre⟩) none = some (.ready p) ∧
      p.coding = fileCoding c f now ∧ H2B.Right true now p (fileBody c f now) ∧ p.kind ≠ .noContent ∧ fileBody c f now ≠ [] := by
  obtain ⟨dir, sz, tag, modified, mime, pre⟩ := f
  obtain ⟨-, hpre⟩ := hu
  simp only at hpre
  unfold Deliverable at hd
  unfold fileBody
  cases hp : pre with
  | some q =>
    obtain ⟨k, e⟩ := q
    subst hp
    cases hm : c.acc.matching k with
    | true =>
      have hc : fileCoding c ⟨dir, sz, tag, modified, mime, some (k, e)⟩ now = some k := by simp [fileCoding, Option.filter, hm]
      rw [hc] at hd ⊢
      simp only at hd ⊢
      refine ⟨⟨.encoded e, e.length, e.length, some k⟩, ?_, rfl, ?_, by simp, hd.2.1⟩
      · simp [H2B.prepare, H2B.source, hm]
      · rw [← hpre k e rfl]; exact H2B.right_encoded _ _ _ _
    | false =>
      have hc : fileCoding c ⟨dir, sz, tag, modified, mime, some (k, e)⟩ now = if c.threshold ≤ now.length then c.acc.decided else none := by simp [fileCoding, Option.filter, hm]
      rw [hc] at hd ⊢
      cases hdec : (if c.threshold ≤ now.length then c.acc.decided else none) with
      | none => rw [hdec] at hd; simp at hd
      | some d =>
        rw [hdec] at hd
        simp only at hd ⊢
        refine ⟨⟨.encoded (c.compress d now), (c.compress d now).length, (c.compress d now).length, some d⟩, ?_, rfl, H2B.right_encoded _ _ _ _, by simp, hd.2.1⟩
        simp only [H2B.prepare, H2B.source, hm, Option.isSome_some, Bool.not_false, Bool.true_and, if_true, Bool.false_eq_true, if_false, hdec, Bool.not_true]
        rw [if_neg (show ¬ d = Response.identity from hd.1), hd.2.2]
        simp
  | none =>
    subst hp
    have hc : fileCoding c ⟨dir, sz, tag, modified, mime, none⟩ now = if c.threshold ≤ now.length then c.acc.decided else none := by simp [fileCoding]
    rw [hc] at hd ⊢
    cases hdec : (if c.threshold ≤ now.length then c.acc.decided else none) with
    | none =>
      rw [hdec] at hd
      simp only at hd ⊢
      obtain ⟨-, hne, hle⟩ := hd
      have e1 : H2B.prepare c.compress c.overflow c.threshold c.acc false none (some ⟨now, none⟩) none =
          some (.ready ⟨.file now, now.length, now.length, none⟩) := by
        simp only [H2B.prepare, H2B.source, Option.isSome_none, Bool.false_and, Bool.false_eq_true, if_false, hdec]
      have hcase : now.length < c.threshold ∨ c.acc.decided = none := by
        by_cases h : c.threshold ≤ now.length
        · rw [if_pos h] at hdec; exact Or.inr hdec
        · exact Or.inl (by omega)
      obtain ⟨r, er, hr⟩ := H2B.C104_file_partial c.compress c.overflow true c.threshold c.acc ⟨now, none⟩ none (Or.inr (Or.inr ⟨rfl, hcase, fun _ => hle⟩))
      rw [e1, Option.some.injEq] at er
      subst er
      rcases hr with hr | ⟨p, hp, hr⟩
      · simp at hr
      · injection hp with hp
        subst hp
        rcases hr with ⟨_, hr⟩ | ⟨k, hk, _⟩
        · exact ⟨_, e1, rfl, hr, by simp, hne⟩
        · simp at hk
    | some d =>
      rw [hdec] at hd
      simp only at hd ⊢
      refine ⟨⟨.encoded (c.compress d now), (c.compress d now).length, (c.compress d now).length, some d⟩, ?_, rfl, H2B.right_encoded _ _ _ _, by simp, hd.2.1⟩
      simp only [H2B.prepare, H2B.source, Option.isSome_none, Bool.false_and, Bool.false_eq_true, if_false, hdec, Bool.not_true]
      rw [if_neg (show ¬ d = Response.identity from hd.1), hd.2.2]
      simp

/-- The response with a file. -/
theorem finishFile_ok (c : Cfg) (f : Served) (now : Bytes) (hu : Unchanged c f now) (hd : Deliverable c f now) :
    ∃ r, finishFile c f now = some r ∧ view r.header = [(b!":status", b!"200")] ++ [(b!"content-length", Response.contLenStr (fileBody c f now).length)] ++
        ([(b!"etag", f.tag), (b!"date", c.date), (b!"last-modified", f.modified), (b!"content-type", f.mime)] ++
          (fileCoding c f now).toList.map fun k => (b!"content-encoding", c.encName k)) ∧
      H2B.Right true r.disk r.plan (fileBody c f now) ∧ (r.plan.kind = .noContent ↔ fileBody c f now = []) := by
  obtain ⟨p, h1, h2, h3, h4, h5⟩ := prepare_file c f now hu hd
  obtain ⟨i0, v0⟩ := fileHeader_ok c.date f
  obtain ⟨h, e, i, v⟩ := H2Trip.statusPseudo_ok _ i0 (code := 200) (reason := b!"OK") (by decide +kernel)
  rw [v0, show Response.threeDigits 200 = b!"200" from by decide] at v
  have key : ∃ h', H2Trip.addCoding c h p.coding = h' ∧ Inv h' ∧ view h' = view h ++ (fileCoding c f now).toList.map fun k => (b!"content-encoding", c.encName k) := by
    rw [h2]
    cases fileCoding c f now with
    | none => exact ⟨h, rfl, i, by simp⟩
    | some k =>
      obtain ⟨i1, v1⟩ := PyBridge.append_ok i (n := b!"content-encoding") ⟨by simp, by decide⟩ (c.encName k)
      exact ⟨_, rfl, i1, by unfold H2Trip.addCoding; rw [v1]; simp⟩
  obtain ⟨h', e', i', v'⟩ := key
  obtain ⟨h'', e'', _, v''⟩ := PyBridge.addModify_ok i' (n := b!"content-length") ⟨by simp, by decide⟩ (Response.contLenStr p.contentLength)
  refine ⟨⟨h'', p, now⟩, ?_, ?_, h3, ?_⟩
  · unfold finishFile
    rw [if_neg (by simp [hu.1]), e]
    simp only [h1, e', e'']
  · show view h'' = _
    rw [v'', v', v, h3.1]
    have hs := Header.setFirst_split (n := b!"content-length") (v := Response.contLenStr (fileBody c f now).length) [(b!":status", b!"200")] (Response.contLenStr f.size)
      ([(b!"etag", f.tag), (b!"date", c.date), (b!"last-modified", f.modified), (b!"content-type", f.mime)] ++
          (fileCoding c f now).toList.map fun k => (b!"content-encoding", c.encName k)) (by simp)
    simpa using hs
  · exact ⟨fun h => absurd h h4, fun h => absurd h h5⟩

end Fly.H2Site
