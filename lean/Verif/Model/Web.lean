/- Model of the requests that pkgr makes: cran/repodb.go:150-193 and cran/download-package.go:193-221, the two `http.Client`s, with
what Go's net/http does for them (certificates, redirects, the proxy of the environment): the parts that are oracles (`web`,
`webFile`) in Model/LocalRepo.lean.
Not modelled: timing, cookies, HTTP/2, resumption; a redirect is taken to give an absolute URL. -/
import Verif.Model.LocalRepo
import Verif.Model.Fetching

namespace Pkgr

/-- What a server answers to `client.Get` (cran/repodb.go:169, cran/download-package.go:202). -/
inductive Served where
  /-- no connection, or no answer -/
  | nothing
  /-- a redirect (301, 302, 303, 307, 308) -/
  | moved (to : Str)
  /-- another status that is not 200 -/
  | status
  /-- status 200: what arrives of the content, and whether that is all of it -/
  | body (content : Str) (complete : Bool)
deriving Repr, DecidableEq

/-- Who is met when a URL is asked for, and what they answer; `trusted`: their certificate is valid for the host and its chain ends
in an authority that this computer trusts (of no interest without TLS); cran/repodb.go:153 and cran/download-package.go:197 are about it. -/
structure Party where
  trusted : Bool
  served : Served
deriving Repr, DecidableEq

/-- The network: who is met when asking directly, and when the proxy settings of the environment are followed (the same
where there are none); used by the clients of cran/repodb.go:150 and cran/download-package.go:193. -/
structure Web where
  direct : Str → Party
  byEnv : Str → Party

/-- An `http.Client`: whether it verifies certificates, and whether it goes by the proxy settings of the environment
(cran/repodb.go:150-156). -/
structure Client where
  checks : Bool
  proxied : Bool
deriving Repr, DecidableEq

/-- cran/repodb.go:150-156 and cran/download-package.go:193-199: `&http.Client{}` has `http.DefaultTransport`, which goes by
`ProxyFromEnvironment`; an `http.Transport` that is made with `TLSClientConfig` only has no `Proxy`. -/
def httpClient (noSecure : Bool) : Client := if noSecure then { checks := false, proxied := false } else { checks := true, proxied := true }

/-- Go `url.Parse`: is the scheme https (schemes are made lower case)?  For the requests of cran/repodb.go:169 and cran/download-package.go:202. -/
def isTLS (url : Str) : Bool := (url.take 5).map Char.toLower = s%"https" && url[5]? = some ':'

/-- Who this client meets (cran/repodb.go:169, cran/download-package.go:202). -/
def Client.meets (c : Client) (w : Web) (url : Str) : Party := if c.proxied then w.byEnv url else w.direct url

/-- What `client.Get` gives (cran/repodb.go:169, cran/download-package.go:202). -/
inductive Got where
  /-- an error -/
  | failed
  | status
  | body (content : Str) (complete : Bool)
deriving Repr, DecidableEq

/-- net/http `Client.Get` (cran/repodb.go:169, cran/download-package.go:202) with at most `n` requests: the handshake fails on a
certificate that does not verify, redirects are followed. -/
def Client.get (c : Client) (w : Web) : Nat → Str → Got
  | 0, _ => .failed
  | n + 1, url =>
    let p := c.meets w url
    if c.checks && isTLS url && !p.trusted then .failed
    else match p.served with
      | .nothing => .failed
      | .moved to => c.get w n to
      | .status => .status
      | .body b complete => .body b complete

/-- net/http `defaultCheckRedirect`: ten requests at most (neither client has a `CheckRedirect`: cran/repodb.go:150-156, cran/download-package.go:193-199). -/
def maxRequests : Nat := 10

/-- cran/repodb.go:169-193: the answer for an index. -/
def Web.index (w : Web) (noSecure : Bool) (url : Str) : Answer :=
  match (httpClient noSecure).get w maxRequests url with
  | .failed => .unreachable
  | .status => .refused
  | .body b complete => if complete then .text b else .refused

/-- cran/download-package.go:202-221, 244: the answer for a package file. -/
def Web.file (w : Web) (noSecure : Bool) (url : Str) : Response :=
  match (httpClient noSecure).get w maxRequests url with
  | .failed => .netError
  | .status => .badStatus
  | .body b complete => .body b complete

/-- cmd/plan.go:159 and cmd/install.go:99: the computer in a network, `cfg.NoSecure` being as given. -/
def Computer.online (m : Computer) (w : Web) (noSecure : Bool) : Computer :=
  { m with web := w.index noSecure, webFile := w.file noSecure }

end Pkgr
