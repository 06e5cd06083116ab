{
 "linIntegrate|dt forgotten in LinearConfigurationSpaceJoint.integrate": [
  "C17_integrate"
 ],
 "isadjointmatrix|diagonal blocks not compared": [
  "C05_isadjointmatrix"
 ],
 "gsLoop|stops after the first sweep too": [
  "C36_stop"
 ],
 "jointLimits|sign of the gap to max": [
  "C39_world",
  "C39_far"
 ],
 "rows26|wrong rows": [
  "C75_velocity"
 ],
 "jointLimits|force not reset": [
  "C43_released"
 ],
 "jointLimits|joint dofs not offset": [
  "C39_world"
 ],
 "softFinger|force not reset": [
  "C43_released"
 ],
 "RS.linkWith|second frame ignored": [
  "C73_frames"
 ],
 "anatLengths|foot length not scaled": [
  "C72_scaling"
 ],
 "pdDofMap|dofs not offset": [
  "C34_joints"
 ],
 "MLink.link|frames swapped": [
  "C87_run",
  "C87_seen"
 ],
 "replaceJoint|wrong multiple": [
  "C57_arity"
 ],
 "World.new|ndof starts at 1": [
  "C30_empty"
 ],
 "tol|tolerance": [
  "C04_refused"
 ],
 "allclose|tolerance": [
  "C13_tolerance"
 ],
 "bcOk|no broadcasting of 1": [
  "C66_iff_partial"
 ],
 "bcOk|extra dimensions accepted": [
  "C66_iff_partial"
 ],
 "write|missing datasets ignored": [
  "C78_new_joint"
 ],
 "ofMat4|transposed": [
  "C78_records"
 ],
 "icubShapes|eyes on the neck": [
  "C97_eyes"
 ],
 "keepsName|spheres keep their names": [
  "C101_unique"
 ],
 "typeOf|fixed joints not recognised": [
  "C110_partial"
 ],
 "jtype|free joint accepted further down": [
  "C111_refused"
 ],
 "jtype|other joints written as Rx": [
  "C111_refused"
 ],
 "update|nothing printed": [
  "C126_run"
 ],
 "editTree|ranks of siblings": [
  "C129_settings"
 ],
 "JAttr.place|positions ignored": [
  "C129_position"
 ],
 "parseMimic|multiplier and offset swapped": [
  "C108_mimic"
 ],
 "mimicXml|multiplier written as offset": [
  "C108_mimic_round"
 ],
 "linkName|default name": [
  "C110_view"
 ],
 "viewGeom|(view) sides swapped": [
  "C110_view"
 ],
 "viewElements|(view) materials refused": [
  "C110_view"
 ],
 "matOf|position of free joints lost": [
  "C112_hstack"
 ],
 "pyStr|names None": [
  "C111_roundtrip"
 ],
 "defaultOpts|radius": [
  "C100_default"
 ],
 "RS.new|ground without a name": [
  "C73_ground"
 ],
 "_root_.Arboris.Build.JAttr.place|velocity reset when placed": [
  "C129_free"
 ],
 "sliceLength|length of backward slices rounded down": [
  "C60_slice_back"
 ],
 "sliceIndices|lower bound of backward slices is 0": [
  "C60_slice_back"
 ]
}