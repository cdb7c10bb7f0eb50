## Not modelled

* Plotting, logging, progress bars and command-line entry points everywhere; `mass/nonstandard`.
* `mass/calibration`: line shapes (`line_models.py`, `fluorescence_lines.py`, `hci_*`), databases of lines, and the least-squares
  fits of `lmfit`; the smoothing splines of scipy (calibration curves use the interpolating spline modelled in C39, or an abstract
  curve that passes through the points).
* `mass/core`: `controller.py`, `fake_data.py`, `projectors_script.py`, entropy minimisation in drift and phase corrections (its
  result is an arbitrary input of the model), `MicrocalDataSet` caching in HDF5 apart from what C44, C49, C70 and C75 say.
* `mass/off/channels.py`: plots, fits and the entropy-based `learn…` functions; only what C25–C29, C53, C61 and C57 need is modelled.
* `mass/materials`, `mass/mathstat/special.py`, `mass/mathstat/fitting.py` except `kink_model`.
* Rounding of floating point (see Conventions), memory use, concurrency (the code has none apart from files that other programs append to,
  which C20 and C24 treat).
