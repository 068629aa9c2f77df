.lake/
lean/build/
