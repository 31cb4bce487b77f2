import Verif.Model.Sql

/-!
# The schema scripts

The statements of `config/sql/migration/migrate.NN.sql`, `config/sql/rollback/rollback.NN.sql` and
`config/sql/schema.sql`, transcribed one to one by a script (types of columns are dropped, as
`Model/Sql.lean` does not convert values; `VALUES` without a column list and `SELECT *` are
written with the columns; explicit `rowid`s in `schema.sql` are those the rows get anyway).
-/

namespace Aktualizr.Sql

/-- A command of a script: a statement, or one that marks a transaction. -/
inductive Cmd where
  | stmt (s : Stmt)
  | savepoint (name : String)
  | release (name : String)
  deriving DecidableEq, Repr

namespace Script

/-- `config/sql/migration/migrate.00.sql`. -/
def migrate0 : List Cmd :=
  [ .savepoint "MIGRATION",
    .stmt (.create "version" [{ name := "version" }] []),
    .stmt (.create "device_info" [{ name := "device_id", notNull := true },
      { name := "is_registered", notNull := true, oneOf := some [0, 1] }] []),
    .stmt (.create "ecu_serials" [{ name := "serial", unique := true },
      { name := "hardware_id", notNull := true },
      { name := "is_primary", notNull := true, oneOf := some [0, 1] }] []),
    .stmt (.create "misconfigured_ecus" [{ name := "serial", unique := true },
      { name := "hardware_id", notNull := true },
      { name := "state", notNull := true, oneOf := some [0, 1] }] []),
    .stmt (.create "primary_keys" [{ name := "private" },
      { name := "public" }] []),
    .stmt (.create "installed_versions" [{ name := "hash", unique := true },
      { name := "name", notNull := true }] []),
    .stmt (.create "tls_creds" [{ name := "ca_cert" },
      { name := "ca_cert_format" },
      { name := "client_cert" },
      { name := "client_cert_format" },
      { name := "client_pkey" },
      { name := "client_pkey_format" }] []),
    .stmt (.create "root_meta" [{ name := "root", notNull := true },
      { name := "root_format", notNull := true },
      { name := "director", notNull := true, oneOf := some [0, 1] },
      { name := "version", notNull := true }] []),
    .stmt (.create "meta" [{ name := "director_root", notNull := true },
      { name := "director_targets", notNull := true },
      { name := "image_root", notNull := true },
      { name := "image_targets", notNull := true },
      { name := "image_timestamp", notNull := true },
      { name := "image_snapshot", notNull := true }] []),
    .stmt (.create "primary_image" [{ name := "filepath", notNull := true }] []),
    .stmt (.insert "version" ["version"] [[.int 0]]),
    .release "MIGRATION" ]

/-- `config/sql/migration/migrate.01.sql`. -/
def migrate1 : List Cmd :=
  [ .savepoint "MIGRATION",
    .stmt (.addColumn "primary_image" { name := "installed_versions", notNull := true, dflt := .text "" }),
    .stmt (.create "device_info_migrate" [{ name := "device_id" },
      { name := "is_registered", notNull := true, dflt := .int 0, oneOf := some [0, 1] }] []),
    .stmt (.select "device_info_migrate" ["device_id", "is_registered"] "device_info"
      [.col "device_id", .col "is_registered"] .rowid (some 1)),
    .stmt (.drop "device_info"),
    .stmt (.rename "device_info_migrate" "device_info"),
    .stmt (.clear "version"),
    .stmt (.insert "version" ["version"] [[.int 1]]),
    .release "MIGRATION" ]

/-- `config/sql/migration/migrate.02.sql`. -/
def migrate2 : List Cmd :=
  [ .savepoint "MIGRATION",
    .stmt (.drop "primary_image"),
    .stmt (.create "target_images" [{ name := "filename", unique := true },
      { name := "image_data", notNull := true }] []),
    .stmt (.clear "version"),
    .stmt (.insert "version" ["version"] [[.int 2]]),
    .release "MIGRATION" ]

/-- `config/sql/migration/migrate.03.sql`. -/
def migrate3 : List Cmd :=
  [ .savepoint "MIGRATION",
    .stmt (.addColumn "installed_versions" { name := "is_current", notNull := true, dflt := .int 0, oneOf := some [0, 1] }),
    .stmt (.clear "version"),
    .stmt (.insert "version" ["version"] [[.int 3]]),
    .release "MIGRATION" ]

/-- `config/sql/migration/migrate.04.sql`. -/
def migrate4 : List Cmd :=
  [ .savepoint "MIGRATION",
    .stmt (.addColumn "installed_versions" { name := "length", notNull := true, dflt := .int 0 }),
    .stmt (.clear "version"),
    .stmt (.insert "version" ["version"] [[.int 4]]),
    .release "MIGRATION" ]

/-- `config/sql/migration/migrate.05.sql`. -/
def migrate5 : List Cmd :=
  [ .savepoint "MIGRATION",
    .stmt (.create "rawmeta" [{ name := "director_root", notNull := true },
      { name := "director_targets", notNull := true },
      { name := "image_root", notNull := true },
      { name := "image_targets", notNull := true },
      { name := "image_timestamp", notNull := true },
      { name := "image_snapshot", notNull := true }] []),
    .stmt (.drop "root_meta"),
    .stmt (.create "root_meta" [{ name := "root", notNull := true },
      { name := "director", notNull := true, oneOf := some [0, 1] },
      { name := "version", notNull := true }] []),
    .stmt (.create "root_rawmeta" [{ name := "root", notNull := true },
      { name := "director", notNull := true, oneOf := some [0, 1] },
      { name := "version", notNull := true }] []),
    .stmt (.clear "version"),
    .stmt (.insert "version" ["version"] [[.int 5]]),
    .release "MIGRATION" ]

/-- `config/sql/migration/migrate.06.sql`. -/
def migrate6 : List Cmd :=
  [ .savepoint "MIGRATION",
    .stmt (.drop "root_meta"),
    .stmt (.drop "rawmeta"),
    .stmt (.drop "root_rawmeta"),
    .stmt (.create "repo_types" [{ name := "repo", notNull := true },
      { name := "repo_string", notNull := true }] []),
    .stmt (.insert "repo_types" ["repo", "repo_string"] [[.int 0, .text "images"], [.int 1, .text "director"]]),
    .stmt (.create "meta_types" [{ name := "meta", notNull := true },
      { name := "meta_string", notNull := true }] []),
    .stmt (.insert "meta_types" ["meta", "meta_string"] [[.int 0, .text "root"], [.int 1, .text "snapshot"], [.int 2, .text "targets"], [.int 3, .text "timestamp"]]),
    .stmt (.create "meta_migrate" [{ name := "meta", notNull := true },
      { name := "repo", notNull := true },
      { name := "meta_type", notNull := true },
      { name := "version", notNull := true }] [["repo", "meta_type", "version"]]),
    .stmt (.select "meta_migrate" ["meta", "repo", "meta_type", "version"] "meta"
      [.col "image_root", .lit (.int 0), .lit (.int 0), .lit (.int (-1))] .rowid (some 1)),
    .stmt (.select "meta_migrate" ["meta", "repo", "meta_type", "version"] "meta"
      [.col "image_snapshot", .lit (.int 0), .lit (.int 1), .lit (.int (-1))] .rowid (some 1)),
    .stmt (.select "meta_migrate" ["meta", "repo", "meta_type", "version"] "meta"
      [.col "image_targets", .lit (.int 0), .lit (.int 2), .lit (.int (-1))] .rowid (some 1)),
    .stmt (.select "meta_migrate" ["meta", "repo", "meta_type", "version"] "meta"
      [.col "image_timestamp", .lit (.int 0), .lit (.int 3), .lit (.int (-1))] .rowid (some 1)),
    .stmt (.select "meta_migrate" ["meta", "repo", "meta_type", "version"] "meta"
      [.col "director_root", .lit (.int 1), .lit (.int 0), .lit (.int (-1))] .rowid (some 1)),
    .stmt (.select "meta_migrate" ["meta", "repo", "meta_type", "version"] "meta"
      [.col "director_targets", .lit (.int 1), .lit (.int 2), .lit (.int (-1))] .rowid (some 1)),
    .stmt (.drop "meta"),
    .stmt (.rename "meta_migrate" "meta"),
    .stmt (.clear "version"),
    .stmt (.insert "version" ["version"] [[.int 6]]),
    .release "MIGRATION" ]

/-- `config/sql/migration/migrate.07.sql`. -/
def migrate7 : List Cmd :=
  [ .savepoint "MIGRATION",
    .stmt (.create "installation_result" [{ name := "unique_mark", oneOf := some [0], rowid := true },
      { name := "id" },
      { name := "result_code", notNull := true, dflt := .int 0 },
      { name := "result_text" }] []),
    .stmt (.clear "version"),
    .stmt (.insert "version" ["version"] [[.int 7]]),
    .release "MIGRATION" ]

/-- `config/sql/migration/migrate.08.sql`. -/
def migrate8 : List Cmd :=
  [ .savepoint "MIGRATION",
    .stmt (.create "primary_keys_migrate" [{ name := "unique_mark", oneOf := some [0], rowid := true },
      { name := "private" },
      { name := "public" }] []),
    .stmt (.select "primary_keys_migrate" ["unique_mark", "private", "public"] "primary_keys"
      [.lit (.int 0), .col "private", .col "public"] .rowid (some 1)),
    .stmt (.drop "primary_keys"),
    .stmt (.rename "primary_keys_migrate" "primary_keys"),
    .stmt (.create "device_info_migrate" [{ name := "unique_mark", oneOf := some [0], rowid := true },
      { name := "device_id" },
      { name := "is_registered", notNull := true, dflt := .int 0, oneOf := some [0, 1] }] []),
    .stmt (.select "device_info_migrate" ["unique_mark", "device_id", "is_registered"] "device_info"
      [.lit (.int 0), .col "device_id", .col "is_registered"] .rowid (some 1)),
    .stmt (.drop "device_info"),
    .stmt (.rename "device_info_migrate" "device_info"),
    .stmt (.clear "version"),
    .stmt (.insert "version" ["version"] [[.int 8]]),
    .release "MIGRATION" ]

/-- `config/sql/migration/migrate.09.sql`. -/
def migrate9 : List Cmd :=
  [ .savepoint "MIGRATION",
    .stmt (.create "installed_versions_migrate" [{ name := "hash" },
      { name := "name", notNull := true },
      { name := "is_current", notNull := true, dflt := .int 0, oneOf := some [0, 1] },
      { name := "length", notNull := true, dflt := .int 0 }] [["hash", "name"]]),
    .stmt (.select "installed_versions_migrate" ["hash", "name", "is_current", "length"] "installed_versions"
      [.col "hash", .col "name", .col "is_current", .col "length"] .rowid none),
    .stmt (.drop "installed_versions"),
    .stmt (.rename "installed_versions_migrate" "installed_versions"),
    .stmt (.clear "version"),
    .stmt (.insert "version" ["version"] [[.int 9]]),
    .release "MIGRATION" ]

/-- `config/sql/migration/migrate.10.sql`. -/
def migrate10 : List Cmd :=
  [ .savepoint "MIGRATION",
    .stmt (.addColumn "target_images" { name := "real_size", notNull := true, dflt := .int 0 }),
    .stmt (.clear "version"),
    .stmt (.insert "version" ["version"] [[.int 10]]),
    .release "MIGRATION" ]

/-- `config/sql/migration/migrate.11.sql`. -/
def migrate11 : List Cmd :=
  [ .savepoint "MIGRATION",
    .stmt (.addColumn "target_images" { name := "sha256", notNull := true, dflt := .text "" }),
    .stmt (.addColumn "target_images" { name := "sha512", notNull := true, dflt := .text "" }),
    .stmt (.clear "version"),
    .stmt (.insert "version" ["version"] [[.int 11]]),
    .release "MIGRATION" ]

/-- `config/sql/migration/migrate.12.sql`. -/
def migrate12 : List Cmd :=
  [ .savepoint "MIGRATION",
    .stmt (.create "need_reboot" [{ name := "unique_mark", oneOf := some [0], rowid := true },
      { name := "flag", notNull := true, dflt := .int 0 }] []),
    .stmt (.clear "version"),
    .stmt (.insert "version" ["version"] [[.int 12]]),
    .release "MIGRATION" ]

/-- `config/sql/migration/migrate.13.sql`. -/
def migrate13 : List Cmd :=
  [ .savepoint "MIGRATION",
    .stmt (.create "installed_versions_migrate" [{ name := "ecu_serial", notNull := true },
      { name := "sha256", notNull := true },
      { name := "name", notNull := true },
      { name := "hashes", notNull := true },
      { name := "length", notNull := true, dflt := .int 0 },
      { name := "correlation_id", notNull := true, dflt := .text "" },
      { name := "is_current", notNull := true, dflt := .int 0, oneOf := some [0, 1] },
      { name := "is_pending", notNull := true, dflt := .int 0, oneOf := some [0, 1] }] [["ecu_serial", "sha256", "name"]]),
    .stmt (.join "installed_versions_migrate" ["ecu_serial", "sha256", "name", "hashes", "length", "correlation_id", "is_current", "is_pending"] "ecu_serials" "is_primary" "installed_versions"
      [(true, .col "serial"), (false, .col "hash"), (false, .col "name"), (false, .lit (.text "")), (false, .col "length"), (false, .lit (.text "")), (false, .col "is_current"), (false, .lit (.int 0))]),
    .stmt (.drop "installed_versions"),
    .stmt (.rename "installed_versions_migrate" "installed_versions"),
    .stmt (.clear "version"),
    .stmt (.insert "version" ["version"] [[.int 13]]),
    .release "MIGRATION" ]

/-- `config/sql/migration/migrate.14.sql`. -/
def migrate14 : List Cmd :=
  [ .savepoint "MIGRATION",
    .stmt (.create "target_images_data" [{ name := "filename", unique := true },
      { name := "image_data", notNull := true }] []),
    .stmt (.create "target_images_info" [{ name := "filename", unique := true },
      { name := "real_size", notNull := true, dflt := .int 0 },
      { name := "sha256", notNull := true, dflt := .text "" },
      { name := "sha512", notNull := true, dflt := .text "" }] []),
    .stmt (.select "target_images_info" ["filename", "real_size", "sha256", "sha512"] "target_images"
      [.col "filename", .col "real_size", .col "sha256", .col "sha512"] .rowid none),
    .stmt (.select "target_images_data" ["filename", "image_data"] "target_images"
      [.col "filename", .col "image_data"] .rowid none),
    .stmt (.drop "target_images"),
    .stmt (.rename "target_images_info" "target_images"),
    .stmt (.clear "version"),
    .stmt (.insert "version" ["version"] [[.int 14]]),
    .release "MIGRATION" ]

/-- `config/sql/migration/migrate.15.sql`. -/
def migrate15 : List Cmd :=
  [ .savepoint "MIGRATION",
    .stmt (.create "rollback_migrations" [{ name := "version_from", unique := true },
      { name := "migration", notNull := true }] []),
    .stmt (.clear "version"),
    .stmt (.insert "version" ["version"] [[.int 15]]),
    .release "MIGRATION" ]

/-- `config/sql/migration/migrate.16.sql`. -/
def migrate16 : List Cmd :=
  [ .savepoint "MIGRATION",
    .stmt (.drop "installation_result"),
    .stmt (.create "device_installation_result" [{ name := "unique_mark", oneOf := some [0], rowid := true },
      { name := "success", notNull := true, dflt := .int 0 },
      { name := "result_code", notNull := true, dflt := .text "" },
      { name := "description", notNull := true, dflt := .text "" },
      { name := "raw_report", notNull := true, dflt := .text "" },
      { name := "correlation_id", notNull := true, dflt := .text "" }] []),
    .stmt (.create "ecu_installation_results" [{ name := "ecu_serial", notNull := true, unique := true },
      { name := "success", notNull := true, dflt := .int 0 },
      { name := "result_code", notNull := true, dflt := .text "" },
      { name := "description", notNull := true, dflt := .text "" }] []),
    .stmt (.clear "version"),
    .stmt (.insert "version" ["version"] [[.int 16]]),
    .release "MIGRATION" ]

/-- `config/sql/migration/migrate.17.sql`. -/
def migrate17 : List Cmd :=
  [ .savepoint "MIGRATION",
    .stmt (.create "delegations" [{ name := "meta", notNull := true },
      { name := "role_name", notNull := true }] [["role_name"]]),
    .stmt (.clear "version"),
    .stmt (.insert "version" ["version"] [[.int 17]]),
    .release "MIGRATION" ]

/-- `config/sql/migration/migrate.18.sql`. -/
def migrate18 : List Cmd :=
  [ .savepoint "MIGRATION",
    .stmt (.drop "target_images_data"),
    .stmt (.drop "target_images"),
    .stmt (.create "target_images" [{ name := "targetname", unique := true },
      { name := "real_size", notNull := true, dflt := .int 0 },
      { name := "sha256", notNull := true, dflt := .text "" },
      { name := "sha512", notNull := true, dflt := .text "" },
      { name := "filename", notNull := true }] []),
    .stmt (.clear "version"),
    .stmt (.insert "version" ["version"] [[.int 18]]),
    .release "MIGRATION" ]

/-- `config/sql/migration/migrate.19.sql`. -/
def migrate19 : List Cmd :=
  [ .savepoint "MIGRATION",
    .stmt (.create "ecu_serials_migrate" [{ name := "id", rowid := true },
      { name := "serial", unique := true },
      { name := "hardware_id", notNull := true },
      { name := "is_primary", notNull := true, dflt := .int 0, oneOf := some [0, 1] }] []),
    .stmt (.select "ecu_serials_migrate" ["serial", "hardware_id", "is_primary"] "ecu_serials"
      [.col "serial", .col "hardware_id", .col "is_primary"] (.flagFirst "is_primary") none),
    .stmt (.drop "ecu_serials"),
    .stmt (.rename "ecu_serials_migrate" "ecu_serials"),
    .stmt (.clear "version"),
    .stmt (.insert "version" ["version"] [[.int 19]]),
    .release "MIGRATION" ]

/-- `config/sql/migration/migrate.20.sql`. -/
def migrate20 : List Cmd :=
  [ .savepoint "MIGRATION",
    .stmt (.rename "installed_versions" "installed_versions_old"),
    .stmt (.create "installed_versions" [{ name := "id", rowid := true },
      { name := "ecu_serial", notNull := true },
      { name := "sha256", notNull := true },
      { name := "name", notNull := true },
      { name := "hashes", notNull := true },
      { name := "length", notNull := true, dflt := .int 0 },
      { name := "correlation_id", notNull := true, dflt := .text "" },
      { name := "is_current", notNull := true, dflt := .int 0, oneOf := some [0, 1] },
      { name := "is_pending", notNull := true, dflt := .int 0, oneOf := some [0, 1] },
      { name := "was_installed", notNull := true, dflt := .int 0, oneOf := some [0, 1] }] []),
    .stmt (.select "installed_versions" ["ecu_serial", "sha256", "name", "hashes", "length", "correlation_id", "is_current", "is_pending", "was_installed"] "installed_versions_old"
      [.col "ecu_serial", .col "sha256", .col "name", .col "hashes", .col "length", .col "correlation_id", .col "is_current", .col "is_pending", .lit (.int 1)] .rowid none),
    .stmt (.drop "installed_versions_old"),
    .stmt (.clear "version"),
    .stmt (.insert "version" ["version"] [[.int 20]]),
    .release "MIGRATION" ]

/-- `config/sql/migration/migrate.21.sql`. -/
def migrate21 : List Cmd :=
  [ .savepoint "MIGRATION",
    .stmt (.addColumn "installed_versions" { name := "custom_meta", notNull := true, dflt := .text "" }),
    .stmt (.clear "version"),
    .stmt (.insert "version" ["version"] [[.int 21]]),
    .release "MIGRATION" ]

/-- `config/sql/migration/migrate.22.sql`. -/
def migrate22 : List Cmd :=
  [ .savepoint "MIGRATION",
    .stmt (.create "ecu_report_counter" [{ name := "ecu_serial", notNull := true, unique := true },
      { name := "counter", notNull := true, dflt := .int 0 }] []),
    .stmt (.clear "version"),
    .stmt (.insert "version" ["version"] [[.int 22]]),
    .release "MIGRATION" ]

/-- `config/sql/migration/migrate.23.sql`. -/
def migrate23 : List Cmd :=
  [ .savepoint "MIGRATION",
    .stmt (.rename "ecu_serials" "ecus"),
    .stmt (.create "secondary_ecus" [{ name := "serial", unique := true },
      { name := "sec_type" },
      { name := "public_key_type" },
      { name := "public_key" },
      { name := "extra" },
      { name := "manifest" }] []),
    .stmt (.clear "version"),
    .stmt (.insert "version" ["version"] [[.int 23]]),
    .release "MIGRATION" ]

/-- `config/sql/migration/migrate.24.sql`. -/
def migrate24 : List Cmd :=
  [ .savepoint "MIGRATION",
    .stmt (.create "report_events" [{ name := "id", rowid := true },
      { name := "json_string", notNull := true }] []),
    .stmt (.clear "version"),
    .stmt (.insert "version" ["version"] [[.int 24]]),
    .release "MIGRATION" ]

/-- `config/sql/migration/migrate.25.sql`. -/
def migrate25 : List Cmd :=
  [ .savepoint "MIGRATION",
    .stmt (.create "device_data" [{ name := "data_type", unique := true },
      { name := "hash", notNull := true }] []),
    .stmt (.clear "version"),
    .stmt (.insert "version" ["version"] [[.int 25]]),
    .release "MIGRATION" ]

/-- `config/sql/rollback/rollback.15.sql`. -/
def rollback15 : List Cmd :=
  [ .savepoint "ROLLBACK_MIGRATION",
    .stmt (.drop "rollback_migrations"),
    .stmt (.clear "version"),
    .stmt (.insert "version" ["version"] [[.int 14]]),
    .release "ROLLBACK_MIGRATION" ]

/-- `config/sql/rollback/rollback.16.sql`. -/
def rollback16 : List Cmd :=
  [ .savepoint "ROLLBACK_MIGRATION",
    .stmt (.drop "device_installation_result"),
    .stmt (.drop "ecu_installation_results"),
    .stmt (.create "installation_result" [{ name := "unique_mark", oneOf := some [0], rowid := true },
      { name := "id" },
      { name := "result_code", notNull := true, dflt := .int 0 },
      { name := "result_text" }] []),
    .stmt (.clear "version"),
    .stmt (.insert "version" ["version"] [[.int 15]]),
    .release "ROLLBACK_MIGRATION" ]

/-- `config/sql/rollback/rollback.17.sql`. -/
def rollback17 : List Cmd :=
  [ .savepoint "ROLLBACK_MIGRATION",
    .stmt (.drop "delegations"),
    .stmt (.clear "version"),
    .stmt (.insert "version" ["version"] [[.int 16]]),
    .release "ROLLBACK_MIGRATION" ]

/-- `config/sql/rollback/rollback.18.sql`. -/
def rollback18 : List Cmd :=
  [ .savepoint "ROLLBACK_MIGRATION",
    .stmt (.create "target_images_data" [{ name := "filename", unique := true },
      { name := "image_data", notNull := true }] []),
    .stmt (.drop "target_images"),
    .stmt (.create "target_images" [{ name := "filename", unique := true },
      { name := "real_size", notNull := true, dflt := .int 0 },
      { name := "sha256", notNull := true, dflt := .text "" },
      { name := "sha512", notNull := true, dflt := .text "" }] []),
    .stmt (.clear "version"),
    .stmt (.insert "version" ["version"] [[.int 17]]),
    .release "ROLLBACK_MIGRATION" ]

/-- `config/sql/rollback/rollback.19.sql`. -/
def rollback19 : List Cmd :=
  [ .savepoint "ROLLBACK_MIGRATION",
    .stmt (.create "ecu_serials_migrate" [{ name := "serial", unique := true },
      { name := "hardware_id", notNull := true },
      { name := "is_primary", notNull := true, oneOf := some [0, 1] }] []),
    .stmt (.select "ecu_serials_migrate" ["serial", "hardware_id", "is_primary"] "ecu_serials"
      [.col "serial", .col "hardware_id", .col "is_primary"] .rowid none),
    .stmt (.drop "ecu_serials"),
    .stmt (.rename "ecu_serials_migrate" "ecu_serials"),
    .stmt (.clear "version"),
    .stmt (.insert "version" ["version"] [[.int 18]]),
    .release "ROLLBACK_MIGRATION" ]

/-- `config/sql/rollback/rollback.20.sql`. -/
def rollback20 : List Cmd :=
  [ .savepoint "ROLLBACK_MIGRATION",
    .stmt (.create "installed_versions_migrate" [{ name := "ecu_serial", notNull := true },
      { name := "sha256", notNull := true },
      { name := "name", notNull := true },
      { name := "hashes", notNull := true },
      { name := "length", notNull := true, dflt := .int 0 },
      { name := "correlation_id", notNull := true, dflt := .text "" },
      { name := "is_current", notNull := true, dflt := .int 0, oneOf := some [0, 1] },
      { name := "is_pending", notNull := true, dflt := .int 0, oneOf := some [0, 1] }] [["ecu_serial", "sha256", "name"]]),
    .stmt (.select "installed_versions_migrate" ["ecu_serial", "sha256", "name", "hashes", "length", "correlation_id", "is_current", "is_pending"] "installed_versions"
      [.col "ecu_serial", .col "sha256", .col "name", .col "hashes", .col "length", .col "correlation_id", .col "is_current", .col "is_pending"] .rowid none),
    .stmt (.drop "installed_versions"),
    .stmt (.rename "installed_versions_migrate" "installed_versions"),
    .stmt (.clear "version"),
    .stmt (.insert "version" ["version"] [[.int 19]]),
    .release "ROLLBACK_MIGRATION" ]

/-- `config/sql/rollback/rollback.21.sql`. -/
def rollback21 : List Cmd :=
  [ .savepoint "ROLLBACK_MIGRATION",
    .stmt (.create "installed_versions_migrate" [{ name := "id", rowid := true },
      { name := "ecu_serial", notNull := true },
      { name := "sha256", notNull := true },
      { name := "name", notNull := true },
      { name := "hashes", notNull := true },
      { name := "length", notNull := true, dflt := .int 0 },
      { name := "correlation_id", notNull := true, dflt := .text "" },
      { name := "is_current", notNull := true, dflt := .int 0, oneOf := some [0, 1] },
      { name := "is_pending", notNull := true, dflt := .int 0, oneOf := some [0, 1] },
      { name := "was_installed", notNull := true, dflt := .int 0, oneOf := some [0, 1] }] []),
    .stmt (.select "installed_versions_migrate" ["ecu_serial", "sha256", "name", "hashes", "length", "correlation_id", "is_current", "is_pending", "was_installed"] "installed_versions"
      [.col "ecu_serial", .col "sha256", .col "name", .col "hashes", .col "length", .col "correlation_id", .col "is_current", .col "is_pending", .col "was_installed"] .rowid none),
    .stmt (.drop "installed_versions"),
    .stmt (.rename "installed_versions_migrate" "installed_versions"),
    .stmt (.clear "version"),
    .stmt (.insert "version" ["version"] [[.int 20]]),
    .release "ROLLBACK_MIGRATION" ]

/-- `config/sql/rollback/rollback.22.sql`. -/
def rollback22 : List Cmd :=
  [ .savepoint "ROLLBACK_MIGRATION",
    .stmt (.drop "ecu_report_counter"),
    .stmt (.clear "version"),
    .stmt (.insert "version" ["version"] [[.int 21]]),
    .release "ROLLBACK_MIGRATION" ]

/-- `config/sql/rollback/rollback.23.sql`. -/
def rollback23 : List Cmd :=
  [ .savepoint "ROLLBACK_MIGRATION",
    .stmt (.drop "secondary_ecus"),
    .stmt (.rename "ecus" "ecu_serials"),
    .stmt (.clear "version"),
    .stmt (.insert "version" ["version"] [[.int 22]]),
    .release "ROLLBACK_MIGRATION" ]

/-- `config/sql/rollback/rollback.24.sql`. -/
def rollback24 : List Cmd :=
  [ .savepoint "ROLLBACK_MIGRATION",
    .stmt (.drop "report_events"),
    .stmt (.clear "version"),
    .stmt (.insert "version" ["version"] [[.int 23]]),
    .release "ROLLBACK_MIGRATION" ]

/-- `config/sql/rollback/rollback.25.sql`. -/
def rollback25 : List Cmd :=
  [ .savepoint "ROLLBACK_MIGRATION",
    .stmt (.drop "device_data"),
    .stmt (.clear "version"),
    .stmt (.insert "version" ["version"] [[.int 24]]),
    .release "ROLLBACK_MIGRATION" ]

/-- `config/sql/schema.sql`. -/
def schema : List Cmd :=
  [ .stmt (.create "version" [{ name := "version" }] []),
    .stmt (.insert "version" ["version"] [[.int 25]]),
    .stmt (.create "device_info" [{ name := "unique_mark", oneOf := some [0], rowid := true },
      { name := "device_id" },
      { name := "is_registered", notNull := true, dflt := .int 0, oneOf := some [0, 1] }] []),
    .stmt (.create "ecus" [{ name := "id", rowid := true },
      { name := "serial", unique := true },
      { name := "hardware_id", notNull := true },
      { name := "is_primary", notNull := true, dflt := .int 0, oneOf := some [0, 1] }] []),
    .stmt (.create "secondary_ecus" [{ name := "serial", unique := true },
      { name := "sec_type" },
      { name := "public_key_type" },
      { name := "public_key" },
      { name := "extra" },
      { name := "manifest" }] []),
    .stmt (.create "misconfigured_ecus" [{ name := "serial", unique := true },
      { name := "hardware_id", notNull := true },
      { name := "state", notNull := true, oneOf := some [0, 1] }] []),
    .stmt (.create "installed_versions" [{ name := "id", rowid := true },
      { name := "ecu_serial", notNull := true },
      { name := "sha256", notNull := true },
      { name := "name", notNull := true },
      { name := "hashes", notNull := true },
      { name := "length", notNull := true, dflt := .int 0 },
      { name := "correlation_id", notNull := true, dflt := .text "" },
      { name := "is_current", notNull := true, dflt := .int 0, oneOf := some [0, 1] },
      { name := "is_pending", notNull := true, dflt := .int 0, oneOf := some [0, 1] },
      { name := "was_installed", notNull := true, dflt := .int 0, oneOf := some [0, 1] },
      { name := "custom_meta", notNull := true, dflt := .text "" }] []),
    .stmt (.create "primary_keys" [{ name := "unique_mark", oneOf := some [0], rowid := true },
      { name := "private" },
      { name := "public" }] []),
    .stmt (.create "tls_creds" [{ name := "ca_cert" },
      { name := "ca_cert_format" },
      { name := "client_cert" },
      { name := "client_cert_format" },
      { name := "client_pkey" },
      { name := "client_pkey_format" }] []),
    .stmt (.create "meta" [{ name := "meta", notNull := true },
      { name := "repo", notNull := true },
      { name := "meta_type", notNull := true },
      { name := "version", notNull := true }] [["repo", "meta_type", "version"]]),
    .stmt (.create "target_images" [{ name := "targetname", unique := true },
      { name := "real_size", notNull := true, dflt := .int 0 },
      { name := "sha256", notNull := true, dflt := .text "" },
      { name := "sha512", notNull := true, dflt := .text "" },
      { name := "filename", notNull := true }] []),
    .stmt (.create "repo_types" [{ name := "repo", notNull := true },
      { name := "repo_string", notNull := true }] []),
    .stmt (.create "meta_types" [{ name := "meta", notNull := true },
      { name := "meta_string", notNull := true }] []),
    .stmt (.insert "meta_types" ["meta", "meta_string"] [[.int 0, .text "root"]]),
    .stmt (.insert "meta_types" ["meta", "meta_string"] [[.int 1, .text "snapshot"]]),
    .stmt (.insert "meta_types" ["meta", "meta_string"] [[.int 2, .text "targets"]]),
    .stmt (.insert "meta_types" ["meta", "meta_string"] [[.int 3, .text "timestamp"]]),
    .stmt (.insert "repo_types" ["repo", "repo_string"] [[.int 0, .text "images"]]),
    .stmt (.insert "repo_types" ["repo", "repo_string"] [[.int 1, .text "director"]]),
    .stmt (.create "device_installation_result" [{ name := "unique_mark", oneOf := some [0], rowid := true },
      { name := "success", notNull := true, dflt := .int 0 },
      { name := "result_code", notNull := true, dflt := .text "" },
      { name := "description", notNull := true, dflt := .text "" },
      { name := "raw_report", notNull := true, dflt := .text "" },
      { name := "correlation_id", notNull := true, dflt := .text "" }] []),
    .stmt (.create "ecu_installation_results" [{ name := "ecu_serial", notNull := true, unique := true },
      { name := "success", notNull := true, dflt := .int 0 },
      { name := "result_code", notNull := true, dflt := .text "" },
      { name := "description", notNull := true, dflt := .text "" }] []),
    .stmt (.create "need_reboot" [{ name := "unique_mark", oneOf := some [0], rowid := true },
      { name := "flag", notNull := true, dflt := .int 0 }] []),
    .stmt (.create "rollback_migrations" [{ name := "version_from", unique := true },
      { name := "migration", notNull := true }] []),
    .stmt (.create "delegations" [{ name := "meta", notNull := true },
      { name := "role_name", notNull := true }] [["role_name"]]),
    .stmt (.create "ecu_report_counter" [{ name := "ecu_serial", notNull := true, unique := true },
      { name := "counter", notNull := true, dflt := .int 0 }] []),
    .stmt (.create "report_events" [{ name := "id", rowid := true },
      { name := "json_string", notNull := true }] []),
    .stmt (.create "device_data" [{ name := "data_type", unique := true },
      { name := "hash", notNull := true }] []) ]

/-- The migrations (`embed_schemas.py:39-43`): the script at place `k` leads from version `k - 1` to
`k`. -/
def migrations : List (List Cmd) := [migrate0, migrate1, migrate2, migrate3, migrate4, migrate5, migrate6, migrate7, migrate8, migrate9, migrate10, migrate11, migrate12, migrate13, migrate14, migrate15, migrate16, migrate17, migrate18, migrate19, migrate20, migrate21, migrate22, migrate23, migrate24, migrate25]

/-- The rollback scripts with the version they lead away from. -/
def rollbacks : List (Nat × List Cmd) := [(15, rollback15), (16, rollback16), (17, rollback17), (18, rollback18), (19, rollback19), (20, rollback20), (21, rollback21), (22, rollback22), (23, rollback23), (24, rollback24), (25, rollback25)]

end Script

end Aktualizr.Sql
