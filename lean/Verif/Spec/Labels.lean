/-!
# Specification: the labels of plots

What `latex_format` is meant to print for each known name, as a function (compare
latex_format.py l.1-44).
-/

namespace Verif.Spec

/-- the label of a name, if it has one -/
def label : String → Option String
  | "int_gamma_n" => some "$\\Gamma_n(t) = \\int{dk_y \\; \\Gamma_n \\left( k_y \\right) }$"
  | "integrated gamma_n" => some "$\\Gamma_n(t) = \\int{dk_y \\; \\Gamma_n \\left( k_y \\right) }$"
  | "gamma_n" => some "$\\Gamma_n$"
  | "gamma_n_k" => some "$\\Gamma_n \\left(k_y\\right)$"
  | "gamma_n_spectral" => some "$\\int{\\Gamma_n \\left( k_y \\right) }$"
  | "gamma_c" => some "$\\Gamma_c$"
  | "ky_phi" => some "$\\phi \\left( k_y \\right)$"
  | "ky_omega" => some "$\\Omega \\left( k_y \\right)$"
  | "ky_density" => some "$n \\left( k_y \\right)$"
  | "ky" => some "$k_y$"
  | "mean" => some "$\\mu$"
  | "std" => some "$\\sigma$"
  | "delta_k" => some "$\\delta_k$"
  | "U_phi" => some "$U_\\phi$"
  | "U_centered" => some "$U \\left( \\Omega-\\mu \\left( \\Omega \\right), n \\right)$"
  | "nu" => some "$\\nu$"
  | "density" => some "density ($n$)"
  | "phi" => some "potential ($\\phi$)"
  | "omega" => some "vorticity ($\\Omega$)"
  | "dE_dt" => some "$\\partial_t E$"
  | "dU_dt" => some "$\\partial_t U$"
  | "DE_v" => some "$DE_v$"
  | "DE_n" => some "$DE_n$"
  | "DEv" => some "$DE_v$"
  | "DEn" => some "$DE_n$"
  | "DE" => some "$DE$"
  | "DU" => some "$DU$"
  | "E" => some "E"
  | "U" => some "U"
  | "cfl" => some "cfl"
  | "mean_gamma_n" => some "$\\mu \\left( \\Gamma_n \\right)$"
  | "std_gamma_n" => some "$\\sigma \\left( \\int \\Gamma_n \\left(k_y\\right) \\right)$"
  | "mean_gamma_c" => some "$\\mu \\left( \\Gamma_c \\right)$"
  | "std_gamma_c" => some "$\\sigma \\left( \\Gamma_c \\right)$"
  | "mean_int_gamma_n" => some "$\\mu_t \\left( \\int \\Gamma_n \\left(k_y\\right) \\right)$"
  | "c1" => some "$c_1$"
  | "kinetic_energy" => some "$E_K$"
  | "thermal_energy" => some "$E_T$"
  | "energy" => some "Energy $(E)$"
  | "enstrophy" => some "Enstrophy $(U)$"
  | "enstrophy_phi" => some "Enstrophy $(U(n,\\phi))$"
  | _ => none

/-- the names that have a label -/
def labelled : List String :=
  ["int_gamma_n", "integrated gamma_n", "gamma_n", "gamma_n_k", "gamma_n_spectral", "gamma_c",
   "ky_phi", "ky_omega", "ky_density", "ky", "mean", "std",
   "delta_k", "U_phi", "U_centered", "nu", "density", "phi",
   "omega", "dE_dt", "dU_dt", "DE_v", "DE_n", "DEv",
   "DEn", "DE", "DU", "E", "U", "cfl",
   "mean_gamma_n", "std_gamma_n", "mean_gamma_c", "std_gamma_c", "mean_int_gamma_n", "c1",
   "kinetic_energy", "thermal_energy", "energy", "enstrophy", "enstrophy_phi"]

end Verif.Spec
