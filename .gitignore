lean/lake-manifest.json
lean/.lake
