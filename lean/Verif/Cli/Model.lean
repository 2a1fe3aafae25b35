import Verif.Conf.Model

/-! # The command line (fly/main.py)

`run` writes the configuration file named on the command line and then one line per option into a
temporary file, and makes that file the configuration of the application.  The configuration parser
is `Fly.Conf.parse`. -/

namespace Fly.Cli

/-- The keys of `kwargs`, in order (fly/main.py:240-268). -/
def kwargsKeys : List Bytes := [
  b!"app", b!"conf_path", b!"daemon", b!"mount_max", b!"workers", b!"encode_threshold", b!"host",
  b!"port", b!"ssl", b!"ssl_crt_path", b!"ssl_key_path", b!"pidfile_path", b!"index_path",
  b!"log_path", b!"log_stdout", b!"log_stderr", b!"backlog", b!"max_response_content_length",
  b!"max_request_content_length", b!"request_timeout", b!"test", b!"print_request", b!"production"]

/-- `CONF_PARAMETES` (fly/main.py:321-341). -/
def confParameters : List Bytes := [
  b!"mount_max", b!"file_max", b!"workers", b!"workers_max", b!"encode_threshold", b!"host",
  b!"port", b!"ssl", b!"ssl_crt_path", b!"ssl_key_path", b!"pidfile_path", b!"index_path",
  b!"log_path", b!"log_stdout", b!"log_stderr", b!"backlog", b!"max_response_content_length",
  b!"max_request_content_length", b!"request_timeout"]

/-- The text of the options given: `f"{key} = {value}\n"` (fly/main.py:343-348).  `opt` is the text of
the value of a key, `none` for Python's `None`. -/
def optionText (opt : Bytes → Option Bytes) : Bytes :=
  kwargsKeys.flatMap (fun k =>
    if k ∈ confParameters then
      match opt k with
      | some v => k ++ b!" = " ++ v ++ [10]
      | none => []
    else [])

/-- The temporary file (fly/main.py:310-348); `conf` is the content of the file given with `-c`. -/
def tempFile (conf : Option Bytes) (opt : Bytes → Option Bytes) : Bytes :=
  conf.getD [] ++ optionText opt

/-- A file: its absolute path and its content. -/
structure File where
  path : Bytes
  content : Bytes
deriving DecidableEq, Repr

/-- The content of the configuration file the server reads for a program with a `Fly` instance
(fly/main.py:350-364); `app` is the file the application was made with, `cli` the one of `-c`.
`none`: the "Ambiguous config_path" error. -/
def effective (app cli : Option File) (opt : Bytes → Option Bytes) : Option Bytes :=
  match cli, app with
  | some c, some a => if a.path ≠ c.path then none else some (tempFile (some c.content) opt)
  | some c, none => some (tempFile (some c.content) opt)
  | none, _ => some (tempFile none opt)

end Fly.Cli
